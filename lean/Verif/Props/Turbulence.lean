import Verif.Turbulence

/-!
# C36 - C39, C97, C98: Alfvenic turbulence
-/

namespace SW
noncomputable section
open Classical

/-- Row `i` has the measured velocity fluctuation (vx,vy,vz) and (rectified) field fluctuation (bx,by,bz). -/
def Turb.Row (T : Turb) (i : ℕ) (vx vy vz bx b_y bz : ℝ) : Prop :=
  T.v i = .ofReal vx vy vz ∧ T.b i = .ofReal bx b_y bz

namespace Turb
variable {T : Turb} {i : ℕ} {vx vy vz bx b_y bz : ℝ}

theorem energy_fin (x y z : ℝ) : energy (.ofReal x y z) = .fin ((x ^ 2 + y ^ 2 + z ^ 2) / 2) := by
  unfold energy V3.ofReal
  simp [Fl.zero_def]; ring

theorem zp_fin (h : T.Row i vx vy vz bx b_y bz) : T.zp i = .ofReal (vx + bx) (vy + b_y) (vz + bz) := by
  unfold zp; rw [h.1, h.2]; simp [V3.ofReal]
theorem zm_fin (h : T.Row i vx vy vz bx b_y bz) : T.zm i = .ofReal (vx - bx) (vy - b_y) (vz - bz) := by
  unfold zm; rw [h.1, h.2]; simp [V3.ofReal]
theorem ep_fin (h : T.Row i vx vy vz bx b_y bz) :
    T.ep i = .fin (((vx + bx) ^ 2 + (vy + b_y) ^ 2 + (vz + bz) ^ 2) / 2) := by
  unfold ep; rw [zp_fin h, energy_fin]
theorem em_fin (h : T.Row i vx vy vz bx b_y bz) :
    T.em i = .fin (((vx - bx) ^ 2 + (vy - b_y) ^ 2 + (vz - bz) ^ 2) / 2) := by
  unfold em; rw [zm_fin h, energy_fin]
theorem ev_fin (h : T.Row i vx vy vz bx b_y bz) : T.ev i = .fin ((vx ^ 2 + vy ^ 2 + vz ^ 2) / 2) := by
  unfold ev; rw [h.1, energy_fin]
theorem eb_fin (h : T.Row i vx vy vz bx b_y bz) : T.eb i = .fin ((bx ^ 2 + b_y ^ 2 + bz ^ 2) / 2) := by
  unfold eb; rw [h.2, energy_fin]
theorem hc_fin (h : T.Row i vx vy vz bx b_y bz) :
    T.crossHelicity i = .fin ((vx * bx + vy * b_y + vz * bz) / 2) := by
  unfold crossHelicity; rw [h.1, h.2]; simp [V3.ofReal, Fl.zero_def]; ring

end Turb

/-- C36: the Elsasser identities at every row with measured fluctuations. -/
theorem C36_identities (T : Turb) (i : ℕ) (vx vy vz bx b_y bz : ℝ) (h : T.Row i vx vy vz bx b_y bz) :
    ∃ ep em ev eb etot eres hc : ℝ,
      T.ep i = .fin ep ∧ T.em i = .fin em ∧ T.ev i = .fin ev ∧ T.eb i = .fin eb ∧ T.etot i = .fin etot ∧
      T.eres i = .fin eres ∧ T.crossHelicity i = .fin hc ∧
      -- z+ + z- = 2 v and z+ - z- = 2 b in every component
      (T.zp i).x + (T.zm i).x = .fin (2 * vx) ∧ (T.zp i).y + (T.zm i).y = .fin (2 * vy) ∧
      (T.zp i).z + (T.zm i).z = .fin (2 * vz) ∧ (T.zp i).x - (T.zm i).x = .fin (2 * bx) ∧
      (T.zp i).y - (T.zm i).y = .fin (2 * b_y) ∧ (T.zp i).z - (T.zm i).z = .fin (2 * bz) ∧
      ev = (vx ^ 2 + vy ^ 2 + vz ^ 2) / 2 ∧ eb = (bx ^ 2 + b_y ^ 2 + bz ^ 2) / 2 ∧
      hc = (vx * bx + vy * b_y + vz * bz) / 2 ∧
      ep + em = 2 * (ev + eb) ∧ ep - em = 4 * hc ∧ etot = (ep + em) / 2 ∧ eres = ev - eb ∧
      0 ≤ ep ∧ 0 ≤ em ∧ 0 ≤ ev ∧ 0 ≤ eb := by
  refine ⟨_, _, _, _, (vx ^ 2 + vy ^ 2 + vz ^ 2) / 2 + (bx ^ 2 + b_y ^ 2 + bz ^ 2) / 2,
    (vx ^ 2 + vy ^ 2 + vz ^ 2) / 2 - (bx ^ 2 + b_y ^ 2 + bz ^ 2) / 2, _, Turb.ep_fin h, Turb.em_fin h, Turb.ev_fin h, Turb.eb_fin h, ?_, ?_, Turb.hc_fin h, ?_⟩
  · unfold Turb.etot; rw [Turb.ev_fin h, Turb.eb_fin h, Fl.fin_add]
  · unfold Turb.eres; rw [Turb.ev_fin h, Turb.eb_fin h, Fl.fin_sub]
  · rw [Turb.zp_fin h, Turb.zm_fin h]
    simp only [V3.ofReal, Fl.fin_add, Fl.fin_sub, Fl.fin_inj]
    refine ⟨by ring, by ring, by ring, by ring, by ring, by ring, trivial, trivial, trivial, by ring, by ring,
      by ring, trivial, by positivity, by positivity, by positivity, by positivity⟩

theorem sq3_zero {a b c : ℝ} (h : a ^ 2 + b ^ 2 + c ^ 2 = 0) : a = 0 ∧ b = 0 ∧ c = 0 := by
  have ha := sq_nonneg a; have hb := sq_nonneg b; have hc := sq_nonneg c
  refine ⟨pow_eq_zero_iff two_ne_zero |>.mp (by linarith), pow_eq_zero_iff two_ne_zero |>.mp (by linarith),
    pow_eq_zero_iff two_ne_zero |>.mp (by linarith)⟩

/-- C37: the normalised quantities are numbers in [-1,1], they lie in the unit disc, and they are the stated
functions of the Alfven and Elsasser ratios, whenever something fluctuates. -/
theorem C37_bounded (T : Turb) (i : ℕ) (vx vy vz bx b_y bz : ℝ) (h : T.Row i vx vy vz bx b_y bz)
    (hne : ¬ (vx = 0 ∧ vy = 0 ∧ vz = 0 ∧ bx = 0 ∧ b_y = 0 ∧ bz = 0)) :
    ∃ sc sr : ℝ, T.sigmaC i = .fin sc ∧ T.sigmaR i = .fin sr ∧ |sc| ≤ 1 ∧ |sr| ≤ 1 ∧ sc ^ 2 + sr ^ 2 ≤ 1 ∧
      (¬ (vx + bx = 0 ∧ vy + b_y = 0 ∧ vz + bz = 0) →
        ∃ r : ℝ, T.rE i = .fin r ∧ 0 ≤ r ∧ sc = (1 - r) / (1 + r)) ∧
      (¬ (bx = 0 ∧ b_y = 0 ∧ bz = 0) → ∃ r : ℝ, T.rA i = .fin r ∧ 0 ≤ r ∧ sr = (r - 1) / (r + 1)) := by
  have hCS0 : (vx * bx + vy * b_y + vz * bz) ^ 2 ≤ (vx ^ 2 + vy ^ 2 + vz ^ 2) * (bx ^ 2 + b_y ^ 2 + bz ^ 2) := by
    nlinarith [sq_nonneg (vx * b_y - vy * bx), sq_nonneg (vx * bz - vz * bx), sq_nonneg (vy * bz - vz * b_y)]
  obtain ⟨A, hA⟩ : ∃ A, A = vx ^ 2 + vy ^ 2 + vz ^ 2 := ⟨_, rfl⟩
  obtain ⟨B, hB⟩ : ∃ B, B = bx ^ 2 + b_y ^ 2 + bz ^ 2 := ⟨_, rfl⟩
  obtain ⟨C, hC⟩ : ∃ C, C = vx * bx + vy * b_y + vz * bz := ⟨_, rfl⟩
  have hA0 : 0 ≤ A := by rw [hA]; positivity
  have hB0 : 0 ≤ B := by rw [hB]; positivity
  have hpos : 0 < A + B := by
    rcases lt_or_eq_of_le (add_nonneg hA0 hB0) with h' | h'
    · exact h'
    · exfalso; apply hne
      obtain ⟨h1, h2, h3⟩ := sq3_zero (a := vx) (b := vy) (c := vz) (by linarith)
      obtain ⟨h4, h5, h6⟩ := sq3_zero (a := bx) (b := b_y) (c := bz) (by linarith)
      exact ⟨h1, h2, h3, h4, h5, h6⟩
  have hCS : C ^ 2 ≤ A * B := by rw [hA, hB, hC]; exact hCS0
  have eP : ((vx + bx) ^ 2 + (vy + b_y) ^ 2 + (vz + bz) ^ 2) / 2 = (A + B) / 2 + C := by rw [hA, hB, hC]; ring
  have eM : ((vx - bx) ^ 2 + (vy - b_y) ^ 2 + (vz - bz) ^ 2) / 2 = (A + B) / 2 - C := by rw [hA, hB, hC]; ring
  have hP : T.ep i = .fin ((A + B) / 2 + C) := by rw [Turb.ep_fin h, eP]
  have hM : T.em i = .fin ((A + B) / 2 - C) := by rw [Turb.em_fin h, eM]
  have hP0 : 0 ≤ (A + B) / 2 + C := by rw [← eP]; positivity
  have hM0 : 0 ≤ (A + B) / 2 - C := by rw [← eM]; positivity
  have hV : T.ev i = .fin (A / 2) := by rw [Turb.ev_fin h, hA]
  have hE : T.eb i = .fin (B / 2) := by rw [Turb.eb_fin h, hB]
  have hdisc : (2 * C / (A + B)) ^ 2 + ((A - B) / (A + B)) ^ 2 ≤ 1 := by
    rw [div_pow, div_pow, ← add_div, div_le_one (by positivity)]
    nlinarith
  refine ⟨2 * C / (A + B), (A - B) / (A + B), ?_, ?_, ?_, ?_, hdisc, ?_, ?_⟩
  · unfold Turb.sigmaC
    rw [hP, hM, Fl.fin_sub, Fl.fin_add, Fl.fin_div _ _ (by linarith), Fl.fin_inj]
    congr 1 <;> ring
  · unfold Turb.sigmaR Turb.eres Turb.etot
    rw [hV, hE, Fl.fin_sub, Fl.fin_add, Fl.fin_div _ _ (by linarith), Fl.fin_inj]
    field_simp
  · rw [← sq_le_one_iff_abs_le_one]; nlinarith [sq_nonneg ((A - B) / (A + B))]
  · rw [← sq_le_one_iff_abs_le_one]; nlinarith [sq_nonneg (2 * C / (A + B))]
  · intro hz
    have hPp : 0 < (A + B) / 2 + C := by
      rcases lt_or_eq_of_le hP0 with h' | h'
      · exact h'
      · exfalso; apply hz
        rw [← eP] at h'
        exact sq3_zero (by linarith)
    refine ⟨((A + B) / 2 - C) / ((A + B) / 2 + C), ?_, by positivity, ?_⟩
    · unfold Turb.rE; rw [hP, hM, Fl.fin_div _ _ hPp.ne']
    · have h1 := hPp.ne'
      have h2 : (A + B) ≠ 0 := hpos.ne'
      have h3 : 1 + ((A + B) / 2 - C) / ((A + B) / 2 + C) = (A + B) / ((A + B) / 2 + C) := by
        rw [eq_div_iff h1, add_mul, div_mul_cancel₀ _ h1]; ring
      have h4 : 1 - ((A + B) / 2 - C) / ((A + B) / 2 + C) = 2 * C / ((A + B) / 2 + C) := by
        rw [eq_div_iff h1, sub_mul, div_mul_cancel₀ _ h1]; ring
      rw [h3, h4, div_div_div_cancel_right₀ h1]
  · intro hz
    have hBp : 0 < B := by
      rcases lt_or_eq_of_le hB0 with h' | h'
      · exact h'
      · exfalso; apply hz
        rw [hB] at h'
        exact sq3_zero h'.symm
    refine ⟨A / B, ?_, by positivity, ?_⟩
    · unfold Turb.rA
      rw [hV, hE, Fl.fin_div _ _ (by linarith), Fl.fin_inj]; field_simp
    · have h1 := hBp.ne'
      rw [show A / B - 1 = (A - B) / B by field_simp, show A / B + 1 = (A + B) / B by field_simp,
        div_div_div_cancel_right₀ h1]

/-- non-vacuity: a row with measured, non-zero fluctuations -/
example : ∃ T : Turb, T.Row 0 1 2 3 4 5 6 :=
  ⟨⟨fun _ => .ofReal 1 2 3, fun _ => .ofReal 4 5 6, none, "p1"⟩, rfl, rfl⟩

/-- C97 (violated): with one velocity component missing, the identity `e+ + e- = 2 (ev + eb)` should either hold
or be NaN. The energies skip NaN componentwise, so the sum misses the field energy of that component: it is
wrong exactly when that field component fluctuates. -/
theorem C97_missing_component (T : Turb) (i : ℕ) (vy vz bx b_y bz : ℝ)
    (hv : T.v i = ⟨.nan, .fin vy, .fin vz⟩) (hb : T.b i = .ofReal bx b_y bz) :
    ∃ ep em ev eb : ℝ, T.ep i = .fin ep ∧ T.em i = .fin em ∧ T.ev i = .fin ev ∧ T.eb i = .fin eb ∧
      ep + em = 2 * (ev + eb) - bx ^ 2 := by
  refine ⟨((vy + b_y) ^ 2 + (vz + bz) ^ 2) / 2, ((vy - b_y) ^ 2 + (vz - bz) ^ 2) / 2, (vy ^ 2 + vz ^ 2) / 2,
    (bx ^ 2 + b_y ^ 2 + bz ^ 2) / 2, ?_, ?_, ?_, ?_, by ring⟩
  · unfold Turb.ep Turb.zp Turb.energy; rw [hv, hb]; simp [V3.ofReal, Fl.zero_def]; ring
  · unfold Turb.em Turb.zm Turb.energy; rw [hv, hb]; simp [V3.ofReal, Fl.zero_def]; ring
  · unfold Turb.ev Turb.energy; rw [hv]; simp [Fl.zero_def]; ring
  · unfold Turb.eb; rw [hb, Turb.energy_fin]

/-- C97: a row with no measured fluctuation at all (for instance one of the first rows, before `min_periods`
measurements are available) has all energies 0 instead of NaN; only the normalised quantities are NaN. -/
theorem C97_all_missing (T : Turb) (i : ℕ) (hv : T.v i = ⟨.nan, .nan, .nan⟩) (hb : T.b i = ⟨.nan, .nan, .nan⟩) :
    T.ep i = .fin 0 ∧ T.em i = .fin 0 ∧ T.ev i = .fin 0 ∧ T.eb i = .fin 0 ∧ T.etot i = .fin 0 ∧
      T.crossHelicity i = .fin 0 ∧ T.sigmaC i = .nan ∧ T.sigmaR i = .nan := by
  have e1 : T.ev i = .fin 0 := by unfold Turb.ev Turb.energy; rw [hv]; simp [Fl.zero_def]
  have e2 : T.eb i = .fin 0 := by unfold Turb.eb Turb.energy; rw [hb]; simp [Fl.zero_def]
  have e3 : T.ep i = .fin 0 := by unfold Turb.ep Turb.zp Turb.energy; rw [hv, hb]; simp [Fl.zero_def]
  have e4 : T.em i = .fin 0 := by unfold Turb.em Turb.zm Turb.energy; rw [hv, hb]; simp [Fl.zero_def]
  have z : (Fl.fin 0) / (Fl.fin 0) = .nan := by
    show (if (0 : ℝ) = 0 then _ else _) = _; simp
  refine ⟨e3, e4, e1, e2, ?_, ?_, ?_, ?_⟩
  · unfold Turb.etot; rw [e1, e2]; simp
  · unfold Turb.crossHelicity; rw [hv, hb]; simp [Fl.zero_def]
  · unfold Turb.sigmaC; rw [e3, e4]; simp [z]
  · unfold Turb.sigmaR Turb.eres Turb.etot; rw [e1, e2]; simp [z]

/-! ### C38 -/

/-- C38: the stored species string. At most one comma; the sides are the input's sides in order, and each side
is the '+'-join of the sorted pieces of the input's side. -/
theorem C38_species (s : String) :
    (1 < s.toList.count ',' ↔ turbSpecies (some s) = .error .valueError) ∧
    (∀ out, turbSpecies (some s) = .ok out →
      (pySplit ',' out).length = (pySplit ',' s).length ∧
      List.Forall₂ (fun o p => (pySplit '+' o).Pairwise (· ≤ ·) ∧ (pySplit '+' o).Perm (pySplit '+' p))
        (pySplit ',' out) (pySplit ',' s)) ∧
    turbSpecies none = .error .typeError := by
  refine ⟨?_, ?_, rfl⟩
  · unfold turbSpecies
    by_cases h : 1 < s.toList.count ','
    · simp [h]
    · simp [h]
  · intro out h
    unfold turbSpecies at h
    simp only [] at h
    split at h
    · cases h
    · have h' := Except.ok.inj h
      subst h'
      have hs : pySplit ',' (pyJoin ',' ((pySplit ',' s).map (fun p => pyJoin '+' (pySorted (pySplit '+' p))))) =
          (pySplit ',' s).map (fun p => pyJoin '+' (pySorted (pySplit '+' p))) := by
        apply pySplit_pyJoin
        · simp [pySplit_ne_nil]
        · intro p hp
          obtain ⟨q, hq, rfl⟩ := List.mem_map.mp hp
          have hq' := pySplit_no_sep ',' s q hq
          rw [← Bool.not_eq_true, hasChar_pyJoin '+' ',' (by decide)]
          rintro ⟨x, hx, hx'⟩
          rw [hasChar_pySplit '+' ',' (by decide) q hq' x (mem_pySorted.mp hx)] at hx'
          cases hx'
      rw [hs]
      refine ⟨by simp, ?_⟩
      rw [List.forall₂_map_left_iff, List.forall₂_same]
      intro p hp
      have e : pySplit '+' (pyJoin '+' (pySorted (pySplit '+' p))) = pySorted (pySplit '+' p) := by
        apply pySplit_pyJoin
        · intro h0
          have := (pySorted_perm (pySplit '+' p)).length_eq
          rw [h0] at this
          exact pySplit_ne_nil '+' p (List.length_eq_zero_iff.mp this.symm)
        · intro x hx
          exact pySplit_no_sep '+' p x (mem_pySorted.mp hx)
      rw [e]
      exact ⟨pySorted_pairwise _, pySorted_perm _⟩

/-- C38: normalising a second time changes nothing. -/
theorem C38_idempotent (s out : String) (h : turbSpecies (some s) = .ok out) :
    turbSpecies (some out) = .ok out := by
  have hF := ((C38_species s).2.1 out h).2
  have hlen := ((C38_species s).2.1 out h).1
  have hc : ∀ u : String, (pySplit ',' u).length = u.toList.count ',' + 1 := by
    intro u
    unfold pySplit
    rw [List.length_map]
    induction u.toList with
    | nil => rfl
    | cons c cs ih =>
      unfold Chars.split
      by_cases hcc : c = ','
      · simp [hcc, ih]
      · rw [if_neg hcc]
        rcases hs : Chars.split ',' cs with _ | ⟨p, ps⟩
        · exact absurd hs (Chars.split_ne_nil _ _)
        · rw [hs] at ih; simp only [List.length_cons] at ih ⊢
          rw [List.count_cons_of_ne hcc]; omega
  have hcnt : ¬ 1 < out.toList.count ',' := by
    have h1 : ¬ 1 < s.toList.count ',' := by
      intro hgt
      rw [(C38_species s).1.mp hgt] at h; cases h
    have := hc s; have := hc out; omega
  unfold turbSpecies
  simp only [hcnt, if_false]
  congr 1
  have : (pySplit ',' out).map (fun p => pyJoin '+' (pySorted (pySplit '+' p))) = pySplit ',' out := by
    have h2 : ∀ o ∈ pySplit ',' out, (pySplit '+' o).Pairwise (· ≤ ·) := by
      generalize pySplit ',' out = l1 at hF
      generalize pySplit ',' s = l2 at hF
      induction hF with
      | nil => simp
      | cons h _ ih => intro o ho; rcases List.mem_cons.mp ho with rfl | ho
                       · exact h.1
                       · exact ih o ho
    conv_rhs => rw [← List.map_id (pySplit ',' out)]
    apply List.map_congr_left
    intro o ho
    rw [pySorted_of_sorted (h2 o ho), pyJoin_pySplit]; rfl
  rw [this, pyJoin_pySplit]

example : turbSpecies (some "p1+a,p2+p1+a") = .ok "a+p1,a+p1+p2" := by decide +kernel
example : turbSpecies (some "a,b,c") = .error .valueError := by decide +kernel

/-! ### C39 -/

/-- Row `j` is in the trailing window ending at row `i`: not later than `i`, and less than one window back. -/
def InWindow (W : Window) (t : ℕ → ℤ) (i j : ℕ) : Prop :=
  j ≤ i ∧ match W with
    | .offset w => t i - t j < w
    | .rows n => i - j < n

theorem mem_windowRows (W : Window) (t : ℕ → ℤ) (i j : ℕ) : j ∈ windowRows W t i ↔ InWindow W t i j := by
  cases W with
  | offset w =>
    simp only [windowRows, InWindow, List.mem_filter, List.mem_range, decide_eq_true_eq]
    constructor <;> rintro ⟨h1, h2⟩ <;> exact ⟨by omega, by omega⟩
  | rows n =>
    simp only [windowRows, InWindow, List.mem_filter, List.mem_range, decide_eq_true_eq]
    constructor <;> rintro ⟨h1, h2⟩ <;> exact ⟨by omega, by omega⟩

theorem nodup_windowRows (W : Window) (t : ℕ → ℤ) (i : ℕ) : (windowRows W t i).Nodup := by
  cases W <;> exact List.nodup_range.filter _

theorem measured_all (f : ℕ → ℝ) (x : ℕ → Fl) (l : List ℕ) (h : ∀ j ∈ l, x j = .fin (f j)) :
    measuredOf x l = l.map f := by
  induction l with
  | nil => rfl
  | cons j l ih =>
    have h1 := h j (by simp)
    have h2 := ih (fun k hk => h k (by simp [hk]))
    unfold measuredOf at h2 ⊢
    rw [List.filterMap_cons_some (b := f j) (by rw [h1]), h2]; rfl

/-- the set of measured rows in the window ending at row `i` -/
def winSet (W : Window) (t : ℕ → ℤ) (x : ℕ → Fl) (i : ℕ) : Finset ℕ :=
  (Finset.range (i + 1)).filter (fun j => InWindow W t i j ∧ (x j).isFinite)

/-- numerical value of a finite number -/
def valR : Fl → ℝ
  | .fin a => a
  | _ => 0

theorem measured_sum (x : ℕ → Fl) (l : List ℕ) (hl : l.Nodup) (S : Finset ℕ)
    (hS : ∀ j, j ∈ S ↔ j ∈ l ∧ (x j).isFinite) :
    (measuredOf x l).length = S.card ∧ (measuredOf x l).sum = ∑ j ∈ S, valR (x j) := by
  induction l generalizing S with
  | nil =>
    have : S = ∅ := by ext j; simp [hS]
    subst this; exact ⟨rfl, rfl⟩
  | cons k l ih =>
    rw [List.nodup_cons] at hl
    by_cases hk : (x k).isFinite
    · obtain ⟨a, ha⟩ := Fl.isFinite_iff.mp hk
      have hkS : k ∈ S := (hS k).mpr ⟨by simp, hk⟩
      have hm : measuredOf x (k :: l) = a :: measuredOf x l := by
        unfold measuredOf; rw [List.filterMap_cons_some (b := a)]; rw [ha]
      obtain ⟨i1, i2⟩ := ih hl.2 (S.erase k) (by
        intro j; rw [Finset.mem_erase, hS]
        constructor
        · rintro ⟨h1, h2, h3⟩
          exact ⟨(List.mem_cons.mp h2).resolve_left h1, h3⟩
        · rintro ⟨h1, h2⟩
          exact ⟨fun h => hl.1 (h ▸ h1), by simp [h1], h2⟩)
      rw [hm]
      constructor
      · rw [List.length_cons, i1, Finset.card_erase_add_one hkS]
      · rw [List.sum_cons, i2, ← Finset.add_sum_erase S _ hkS, ha]; rfl
    · have hm : measuredOf x (k :: l) = measuredOf x l := by
        unfold measuredOf; rw [List.filterMap_cons_none]
        cases hx : x k with
        | fin a => rw [hx] at hk; exact absurd (Fl.isFinite_fin a) hk
        | _ => rfl
      rw [hm]
      exact ih hl.2 S (by
        intro j; rw [hS]
        constructor
        · rintro ⟨h1, h2⟩
          rcases List.mem_cons.mp h1 with rfl | h1
          · exact absurd h2 hk
          · exact ⟨h1, h2⟩
        · rintro ⟨h1, h2⟩; exact ⟨by simp [h1], h2⟩)

theorem rollMean_eq (W : Window) (mp : ℕ) (t : ℕ → ℤ) (x : ℕ → Fl) (i : ℕ) :
    rollMean W mp t x i = if (winSet W t x i).card < mp then .nan
      else .fin (∑ j ∈ winSet W t x i, valR (x j)) / .fin (winSet W t x i).card := by
  have hS : ∀ j, j ∈ winSet W t x i ↔ j ∈ windowRows W t i ∧ (x j).isFinite := by
    intro j
    rw [mem_windowRows]
    unfold winSet
    rw [Finset.mem_filter, Finset.mem_range]
    constructor
    · rintro ⟨_, h⟩; exact h
    · intro h; exact ⟨by have := h.1.1; omega, h⟩
  obtain ⟨h1, h2⟩ := measured_sum x _ (nodup_windowRows W t i) _ hS
  unfold rollMean
  simp only [h1, h2]

/-- C39: the fluctuation at a measured row with enough measurements in its window is the value minus the mean
of the measured values in the trailing window. -/
theorem C39_value (W : Window) (mp : ℕ) (t : ℕ → ℤ) (x : ℕ → Fl) (i : ℕ) (a : ℝ) (hx : x i = .fin a)
    (hmp : mp ≤ (winSet W t x i).card) (hne : (winSet W t x i).card ≠ 0) :
    delta W mp t x i = .fin (a - (∑ j ∈ winSet W t x i, valR (x j)) / (winSet W t x i).card) := by
  unfold delta
  rw [rollMean_eq, if_neg (by omega), hx, Fl.fin_div _ _ (by exact_mod_cast hne), Fl.fin_sub]

/-- C39: it is NaN at a NaN measurement and wherever fewer than `min_periods` measurements are in the window. -/
theorem C39_missing (W : Window) (mp : ℕ) (t : ℕ → ℤ) (x : ℕ → Fl) (i : ℕ)
    (h : x i = .nan ∨ (winSet W t x i).card < mp) : delta W mp t x i = .nan := by
  unfold delta
  rcases h with h | h
  · rw [h]; simp
  · rw [rollMean_eq, if_pos h]; simp

/-- C39: the deviations of the window's measured values from the subtracted mean sum to zero. -/
theorem C39_mean_free (W : Window) (mp : ℕ) (t : ℕ → ℤ) (x : ℕ → Fl) (i : ℕ)
    (hmp : mp ≤ (winSet W t x i).card) (hne : (winSet W t x i).card ≠ 0) :
    ∃ m : ℝ, rollMean W mp t x i = .fin m ∧ ∑ j ∈ winSet W t x i, (valR (x j) - m) = 0 := by
  have hc : ((winSet W t x i).card : ℝ) ≠ 0 := by exact_mod_cast hne
  refine ⟨(∑ j ∈ winSet W t x i, valR (x j)) / (winSet W t x i).card, ?_, ?_⟩
  · rw [rollMean_eq, if_neg (by omega), Fl.fin_div _ _ hc]
  · rw [Finset.sum_sub_distrib, Finset.sum_const, nsmul_eq_mul]; field_simp; ring

/-- C39: a constant measured series has zero fluctuation, and adding a constant (a change of reference frame)
or any change outside the window leaves the fluctuation alone. -/
theorem C39_shift (W : Window) (mp : ℕ) (t : ℕ → ℤ) (x : ℕ → Fl) (i : ℕ) (c : ℝ) :
    delta W mp t (fun j => x j + .fin c) i = delta W mp t x i ∨ x i = .pinf ∨ x i = .ninf := by
  by_cases hinf : x i = .pinf ∨ x i = .ninf
  · exact Or.inr hinf
  left
  have hfin : ∀ j, (x j + Fl.fin c).isFinite ↔ (x j).isFinite := by
    intro j; cases hxj : x j <;> simp <;> first | exact id | (show ¬ False; exact id)
  have hS : winSet W t (fun j => x j + .fin c) i = winSet W t x i := by
    unfold winSet; congr 1; funext j; rw [hfin]
  unfold delta
  rw [rollMean_eq, rollMean_eq, hS]
  by_cases hlt : (winSet W t x i).card < mp
  · rw [if_pos hlt, if_pos hlt]; simp
  · rw [if_neg hlt, if_neg hlt]
    simp only []
    cases hxi : x i with
    | nan => simp
    | pinf => exact absurd (Or.inl hxi) hinf
    | ninf => exact absurd (Or.inr hxi) hinf
    | fin a =>
      by_cases h0 : (winSet W t x i).card = 0
      · have he : winSet W t x i = ∅ := Finset.card_eq_zero.mp h0
        have z : (Fl.fin 0) / (Fl.fin 0) = .nan := by
          show (if (0 : ℝ) = 0 then _ else _) = _; simp
        rw [he]; simp [z]
      · have hc : ((winSet W t x i).card : ℝ) ≠ 0 := by exact_mod_cast h0
        have hsum : ∑ j ∈ winSet W t x i, valR (x j + .fin c) =
            ∑ j ∈ winSet W t x i, valR (x j) + (winSet W t x i).card * c := by
          rw [show ((winSet W t x i).card : ℝ) * c = ∑ j ∈ winSet W t x i, c by simp, ← Finset.sum_add_distrib]
          apply Finset.sum_congr rfl
          intro j hj
          have : (x j).isFinite := (Finset.mem_filter.mp hj).2.2
          obtain ⟨b, hb⟩ := Fl.isFinite_iff.mp this
          rw [hb]; simp [valR]
        rw [hsum, Fl.fin_div _ _ hc, Fl.fin_div _ _ hc]
        simp only [Fl.fin_add, Fl.fin_sub, Fl.fin_inj]
        rw [add_div, mul_div_cancel_left₀ _ hc]; ring

theorem C39_constant (W : Window) (mp : ℕ) (t : ℕ → ℤ) (c : ℝ) (i : ℕ)
    (hmp : mp ≤ (winSet W t (fun _ => .fin c) i).card) (hW : InWindow W t i i) :
    delta W mp t (fun _ => .fin c) i = .fin 0 := by
  have hne : (winSet W t (fun _ => .fin c) i).card ≠ 0 := by
    apply Finset.card_ne_zero_of_mem (a := i)
    unfold winSet; simp [hW]
  rw [C39_value W mp t _ i c rfl hmp hne]
  simp only [valR, Finset.sum_const, nsmul_eq_mul, Fl.fin_inj]
  have hc : ((winSet W t (fun _ => Fl.fin c) i).card : ℝ) ≠ 0 := by exact_mod_cast hne
  field_simp; ring

/-- C39: causality - the fluctuation at row `i` depends only on the rows of its trailing window. -/
theorem C39_local (W : Window) (mp : ℕ) (t : ℕ → ℤ) (x y : ℕ → Fl) (i : ℕ) (hi : x i = y i)
    (h : ∀ j, InWindow W t i j → x j = y j) : delta W mp t x i = delta W mp t y i := by
  have hS : winSet W t x i = winSet W t y i := by
    unfold winSet
    apply Finset.filter_congr
    intro j _
    constructor
    · rintro ⟨h1, h2⟩; exact ⟨h1, h j h1 ▸ h2⟩
    · rintro ⟨h1, h2⟩; exact ⟨h1, (h j h1).symm ▸ h2⟩
  unfold delta
  rw [rollMean_eq, rollMean_eq, hS, hi]
  have : ∑ j ∈ winSet W t y i, valR (x j) = ∑ j ∈ winSet W t y i, valR (y j) := by
    apply Finset.sum_congr rfl
    intro j hj
    rw [h j (Finset.mem_filter.mp hj).2.1]
  rw [this]

/-- C39: what `set_data` stores is exactly these fluctuations of the velocity and of the field divided by
sqrt(rho) and converted to speed units. -/
theorem C39_stored (I : TurbIn) (s : Option String) (W : Window) (mp : ℕ) (T : Turb)
    (h : turbSet I s W mp = .ok T) (i : ℕ) :
    T.v i = ⟨delta W mp I.t I.v.x i, delta W mp I.t I.v.y i, delta W mp I.t I.v.z i⟩ ∧
    (T.b i).x = delta W mp I.t (fun j => I.b.x j / Fl.sqrt (I.rho j) * .fin I.coef) i ∧
    (T.b i).y = delta W mp I.t (fun j => I.b.y j / Fl.sqrt (I.rho j) * .fin I.coef) i ∧
    (T.b i).z = delta W mp I.t (fun j => I.b.z j / Fl.sqrt (I.rho j) * .fin I.coef) i := by
  unfold turbSet at h
  cases hs : turbSpecies s with
  | error e => rw [hs] at h; cases h
  | ok sp =>
    rw [hs] at h
    cases hw : windowCheck W mp with
    | error e => rw [hw] at h; cases h
    | ok u =>
    rw [hw] at h
    have h' := Except.ok.inj h
    subst h'
    exact ⟨rfl, rfl, rfl, rfl⟩

/-- non-vacuity: five samples one minute apart, default window of 15 minutes, constant series -/
example : delta (.offset 900000000000) 5 (fun j => 60000000000 * (j : ℤ)) (fun _ => .fin 3) 4 = .fin 0 := by
  apply C39_constant
  · have : winSet (.offset 900000000000) (fun j => 60000000000 * (j : ℤ)) (fun _ => .fin 3) 4 =
        Finset.range 5 := by
      unfold winSet
      rw [Finset.filter_true_of_mem]
      intro j hj
      rw [Finset.mem_range] at hj
      simp only [InWindow, Fl.isFinite_fin, and_true]
      refine ⟨by omega, by push_cast; omega⟩
    rw [this]; simp
  · exact ⟨le_rfl, by norm_num⟩

/-! ### C98: the rectified ("Raffaella") version -/

/-- C98: the rectified version needs a spacecraft; with one, polarity only takes the values -1, 0, 1
(or NaN when opposite infinities meet), leaves the total energy and the residual energy unchanged where it is +-1, and multiplies the cross
helicity by the polarity. -/
theorem C98_rectified (I : TurbIn) (sc : Option ScIn) (omega : ℝ) (s : Option String) (W : Window) (mp : ℕ) :
    (∀ sp, turbSpecies s = .ok sp → sc = none → turbSetRaff I sc omega s W mp = .error .valueError) ∧
    (∀ T, turbSetRaff I sc omega s W mp = .ok T → ∀ i,
      ∃ p : Fl, T.polarity.map (· i) = some p ∧ (p = .fin 1 ∨ p = .fin (-1) ∨ p = .fin 0 ∨ p = .nan) ∧
      ∀ vx vy vz bx b_y bz : ℝ, T.dv i = .ofReal vx vy vz → T.db i = .ofReal bx b_y bz →
        (p = .fin 1 ∨ p = .fin (-1) →
          T.etot i = .fin ((vx ^ 2 + vy ^ 2 + vz ^ 2) / 2 + (bx ^ 2 + b_y ^ 2 + bz ^ 2) / 2) ∧
          T.eres i = .fin ((vx ^ 2 + vy ^ 2 + vz ^ 2) / 2 - (bx ^ 2 + b_y ^ 2 + bz ^ 2) / 2) ∧
          T.crossHelicity i = p * .fin ((vx * bx + vy * b_y + vz * bz) / 2))) := by
  constructor
  · rintro sp hs rfl
    unfold turbSetRaff; rw [hs]; rfl
  · intro T hT i
    unfold turbSetRaff at hT
    cases hs : turbSpecies s with
    | error e => rw [hs] at hT; cases hT
    | ok sp =>
      rw [hs] at hT
      cases sc with
      | none => cases hT
      | some sc =>
        cases hw : windowCheck W mp with
        | error e => simp only [hw] at hT; cases hT
        | ok u =>
        simp only [hw] at hT
        have h' := Except.ok.inj hT
        refine ⟨raffPolarity I sc omega i, ?_, ?_, ?_⟩
        · rw [← h']; rfl
        · unfold raffPolarity flSign
          split
          · simp
          · simp
          · simp
          · split
            · simp
            · split <;> simp
        · intro vx vy vz bx b_y bz hv hb hp
          have hpol : T.polarity = some (raffPolarity I sc omega) := by rw [← h']
          have key : ∀ q : ℝ, raffPolarity I sc omega i = .fin q →
              T.Row i vx vy vz (bx * q) (b_y * q) (bz * q) := by
            intro q hq
            refine ⟨hv, ?_⟩
            unfold Turb.b; rw [hpol]; simp only [hb, hq]; simp [V3.ofReal]
          rcases hp with hp | hp
          · have R := key 1 hp
            rw [hp]
            unfold Turb.etot Turb.eres
            rw [Turb.ev_fin R, Turb.eb_fin R, Turb.hc_fin R]
            simp
          · have R := key (-1) hp
            rw [hp]
            unfold Turb.etot Turb.eres
            rw [Turb.ev_fin R, Turb.eb_fin R, Turb.hc_fin R]
            simp
            ring

/-- C98: on a fully measured row (position non-zero, density positive) the series that is
averaged is the RTN velocity with the spiral speed `r Omega cos(latitude)` removed from the tangential component,
and the polarity is the sign of its in-plane product with the field. -/
theorem C98_polarity (I : TurbIn) (sc : ScIn) (omega : ℝ) (s : Option String) (W : Window) (mp : ℕ) (T : Turb)
    (hT : turbSetRaff I (some sc) omega s W mp = .ok T) (i : ℕ) (vx vy bx b_y rho px py pz r : ℝ)
    (h1 : I.v.x i = .fin vx) (h2 : I.v.y i = .fin vy) (h3 : I.b.x i = .fin bx) (h4 : I.b.y i = .fin b_y)
    (h5 : I.rho i = .fin rho) (hr : 0 < rho) (h6 : sc.pos i = V3.ofReal px py pz)
    (hp : 0 < px ^ 2 + py ^ 2 + pz ^ 2) (h7 : sc.dist i = .fin r) :
    ∃ vT dot : ℝ,
      vT = -vy - r / 1000 * (Real.sqrt (px ^ 2 + py ^ 2) / Real.sqrt (px ^ 2 + py ^ 2 + pz ^ 2)) * omega ∧
      (raffV I sc omega).x i = .fin (-vx) ∧ (raffV I sc omega).y i = .fin vT ∧
      dot = (-vx) * (-bx) + vT * (-b_y) ∧
      ((0 < dot * I.coef → T.polarity.map (· i) = some (.fin 1)) ∧
       (dot * I.coef < 0 → T.polarity.map (· i) = some (.fin (-1))) ∧
       (dot * I.coef = 0 → T.polarity.map (· i) = some (.fin 0))) := by
  have hpol : T.polarity = some (raffPolarity I sc omega) := by
    unfold turbSetRaff at hT
    cases hs : turbSpecies s with
    | error e => rw [hs] at hT; cases hT
    | ok sp =>
      rw [hs] at hT
      cases hw : windowCheck W mp with
      | error e => simp only [hw] at hT; cases hT
      | ok u => simp only [hw] at hT; rw [← Except.ok.inj hT]
  have hsq : Real.sqrt (px ^ 2 + py ^ 2 + pz ^ 2) ≠ 0 := (Real.sqrt_pos.mpr hp).ne'
  have hrs : Real.sqrt rho ≠ 0 := (Real.sqrt_pos.mpr hr).ne'
  have hc : spiralCorrection sc omega i =
      .fin (r / 1000 * (Real.sqrt (px ^ 2 + py ^ 2) / Real.sqrt (px ^ 2 + py ^ 2 + pz ^ 2)) * omega) := by
    unfold spiralCorrection
    simp only []
    have e1 := V3.mag_ofReal px py pz
    have e2 := V3.rho_ofReal px py pz
    unfold V3.mag at e1
    unfold V3.rho at e2
    rw [h6, e1, e2, h7, Fl.fin_div _ _ hsq, Fl.fin_mul, Fl.fin_mul, Fl.fin_mul]
    congr 1; ring
  have hvx : (raffV I sc omega).x i = .fin (-vx) := by
    show I.v.x i * _ = _
    rw [h1, Fl.fin_mul]; congr 1; ring
  have hvy : (raffV I sc omega).y i = .fin (-vy - r / 1000 * (Real.sqrt (px ^ 2 + py ^ 2) /
      Real.sqrt (px ^ 2 + py ^ 2 + pz ^ 2)) * omega) := by
    show I.v.y i * _ - spiralCorrection sc omega i = _
    rw [h2, hc, Fl.fin_mul, Fl.fin_sub]; congr 1; ring
  refine ⟨_, _, rfl, hvx, hvy, rfl, ?_⟩
  have hB : ∀ (q : Fl) (x : ℝ), q = .fin x → alfvenUnits I.coef (I.rho i) q * .fin (-1) =
      .fin (-x / Real.sqrt rho * I.coef) := by
    rintro q x rfl
    unfold alfvenUnits
    rw [h5, Fl.sqrt_fin _ hr.le, Fl.fin_div _ _ hrs, Fl.fin_mul, Fl.fin_mul]; congr 1; ring
  have hbx : (raffB I).x i = .fin (-bx / Real.sqrt rho * I.coef) := hB _ _ h3
  have hby : (raffB I).y i = .fin (-b_y / Real.sqrt rho * I.coef) := hB _ _ h4
  generalize -vy - r / 1000 * (Real.sqrt (px ^ 2 + py ^ 2) / Real.sqrt (px ^ 2 + py ^ 2 + pz ^ 2)) * omega = vT at *
  have hpv : raffPolarity I sc omega i = flSign (.fin ((-vx * -bx + vT * -b_y) * I.coef / Real.sqrt rho)) := by
    unfold raffPolarity
    rw [hvx, hvy, hbx, hby]
    simp only [Fl.fin_mul, Fl.sumSkip_cons_fin, Fl.sumSkip_nil, Fl.zero_def, Fl.fin_add]
    congr 2; field_simp; ring
  have hs := Real.sqrt_pos.mpr hr
  rw [hpol]
  simp only [Option.map_some, hpv, flSign]
  refine ⟨fun h => ?_, fun h => ?_, fun h => ?_⟩
  · rw [if_pos (by positivity)]
  · have : (-vx * -bx + vT * -b_y) * I.coef / Real.sqrt rho < 0 := div_neg_of_neg_of_pos h hs
    rw [if_neg (by linarith), if_pos this]
  · rw [h]; simp

/-- C98: the fluctuations stored by the rectified version are those of the RTN series; the normal component keeps
its sign. -/
theorem C98_stored (I : TurbIn) (sc : ScIn) (omega : ℝ) (s : Option String) (W : Window) (mp : ℕ) (T : Turb)
    (hT : turbSetRaff I (some sc) omega s W mp = .ok T) (i : ℕ) :
    T.dv i = ⟨delta W mp I.t (fun j => I.v.x j * .fin (-1)) i, delta W mp I.t (raffV I sc omega).y i,
      delta W mp I.t (fun j => I.v.z j * .fin 1) i⟩ ∧
    T.db i = ⟨delta W mp I.t (fun j => I.b.x j / Fl.sqrt (I.rho j) * .fin I.coef * .fin (-1)) i,
      delta W mp I.t (fun j => I.b.y j / Fl.sqrt (I.rho j) * .fin I.coef * .fin (-1)) i,
      delta W mp I.t (fun j => I.b.z j / Fl.sqrt (I.rho j) * .fin I.coef * .fin 1) i⟩ := by
  unfold turbSetRaff at hT
  cases hs : turbSpecies s with
  | error e => rw [hs] at hT; cases hT
  | ok sp =>
    rw [hs] at hT
    cases hw : windowCheck W mp with
    | error e => simp only [hw] at hT; cases hT
    | ok u => simp only [hw] at hT; rw [← Except.ok.inj hT]; exact ⟨rfl, rfl⟩

/-- C39, C98: with an acceptable species string the only window refused is a number of rows below the number of measurements required. -/
theorem C39_window (I : TurbIn) (s : Option String) (sp : String) (sc : ScIn) (omega : ℝ) (W : Window) (mp : ℕ)
    (hs : turbSpecies s = .ok sp) :
    ((∃ n, W = .rows n ∧ n < mp) → turbSet I s W mp = .error .valueError ∧ turbSetRaff I (some sc) omega s W mp = .error .valueError) ∧
    ((∀ n, W = .rows n → mp ≤ n) → (∃ T, turbSet I s W mp = .ok T) ∧ ∃ T, turbSetRaff I (some sc) omega s W mp = .ok T) := by
  unfold turbSet turbSetRaff
  rw [hs]
  constructor
  · rintro ⟨n, rfl, hn⟩
    have : windowCheck (.rows n) mp = .error .valueError := by unfold windowCheck; simp only [if_pos hn]
    simp only [this]
    exact ⟨rfl, rfl⟩
  · intro h
    have : windowCheck W mp = .ok () := by
      unfold windowCheck
      cases W with
      | offset w => rfl
      | rows n => simp only [if_neg (not_lt.mpr (h n rfl))]
    simp only [this]
    exact ⟨⟨_, rfl⟩, ⟨_, rfl⟩⟩

/-- C39, C98: by default the window is 15 minutes and 5 measurements are required. -/
theorem C39_defaults (I : TurbIn) (s : Option String) (sc : Option ScIn) (omega : ℝ) :
    turbSet I s = turbSet I s (.offset (15 * 60 * 1000000000)) 5 ∧
    turbSetRaff I sc omega s = turbSetRaff I sc omega s (.offset (15 * 60 * 1000000000)) 5 := by
  norm_num

end
end SW
