import Verif.Spacecraft
import Mathlib.Analysis.SpecialFunctions.Log.Basic

/-!
# C34, C35, C96: distance to the Sun and reference abundances
-/

namespace SW
noncomputable section
open Classical

/-! ### Specification -/

/-- `s` spells `w` in any mixture of upper and lower case ASCII letters: `pairs` lists (upper, lower). -/
def Spells (s : String) (pairs : List (Char × Char)) : Prop :=
  List.Forall₂ (fun c p => c = p.1 ∨ c = p.2) s.toList pairs

def gse : List (Char × Char) := [('G', 'g'), ('S', 's'), ('E', 'e')]
def hci : List (Char × Char) := [('H', 'h'), ('C', 'c'), ('I', 'i')]
def wind : List (Char × Char) := [('W', 'w'), ('I', 'i'), ('N', 'n'), ('D', 'd')]
def psp : List (Char × Char) := [('P', 'p'), ('S', 's'), ('P', 'p')]

/-! ### Helpers -/

theorem toUpper_eq_iff (u l c : Char) (hul : u.toNat + 32 = l.toNat) (hu : 65 ≤ u.toNat ∧ u.toNat ≤ 90) :
    c.toUpper = u ↔ c = u ∨ c = l := by
  unfold Char.toUpper
  have key : ∀ a b : Char, a.toNat = b.toNat → a = b := fun a b h => Char.toNat_inj.mp h
  split
  · rename_i h
    have h1 : 97 ≤ c.toNat := by
      have := h.1; simpa [UInt32.le_iff_toNat_le] using this
    have h2 : c.toNat ≤ 122 := by
      have := h.2; simpa [UInt32.le_iff_toNat_le] using this
    have hv : (c.val + ('A'.val - 'a'.val)).toNat = c.toNat - 32 := by
      have e : c.val.toNat = c.toNat := rfl
      have e2 : ('A'.val - 'a'.val).toNat = 4294967264 := by decide
      rw [UInt32.toNat_add, e2, e]
      omega
    constructor
    · intro h'
      right
      apply key
      have := congrArg Char.toNat h'
      have h3 : c.toNat - 32 = u.toNat := by rw [← hv]; exact this
      omega
    · rintro (rfl | rfl)
      · omega
      · apply key
        show (c.val + ('A'.val - 'a'.val)).toNat = u.toNat
        rw [hv]; omega
  · rename_i h
    constructor
    · intro h'; exact Or.inl h'
    · rintro (rfl | rfl)
      · rfl
      · exfalso; apply h
        simp only [UInt32.le_iff_toNat_le]
        have e : c.val.toNat = c.toNat := rfl
        constructor
        · show ('a'.val).toNat ≤ _
          have : ('a'.val).toNat = 97 := by decide
          omega
        · show _ ≤ ('z'.val).toNat
          have : ('z'.val).toNat = 122 := by decide
          omega

theorem map_toUpper_iff (l : List Char) (w : List (Char × Char))
    (hw : ∀ p ∈ w, p.1.toNat + 32 = p.2.toNat ∧ 65 ≤ p.1.toNat ∧ p.1.toNat ≤ 90) :
    l.map Char.toUpper = w.map Prod.fst ↔ List.Forall₂ (fun c p => c = p.1 ∨ c = p.2) l w := by
  induction w generalizing l with
  | nil => cases l <;> simp
  | cons p w ih =>
    cases l with
    | nil => simp
    | cons c l =>
      have hp := hw p (by simp)
      simp only [List.map_cons, List.cons.injEq, List.forall₂_cons]
      rw [ih l (fun q hq => hw q (by simp [hq])), toUpper_eq_iff p.1 p.2 c hp.1 hp.2]

theorem pyUpper_iff (s u : String) (w : List (Char × Char)) (hu : u.toList = w.map Prod.fst)
    (hw : ∀ p ∈ w, p.1.toNat + 32 = p.2.toNat ∧ 65 ≤ p.1.toNat ∧ p.1.toNat ≤ 90) :
    pyUpper s = u ↔ Spells s w := by
  unfold pyUpper Spells
  rw [← map_toUpper_iff _ _ hw, ← hu]
  constructor
  · intro h; rw [← h]; simp
  · intro h; rw [h]; simp

theorem upper_gse (s : String) : pyUpper s = "GSE" ↔ Spells s gse := pyUpper_iff s _ gse (by decide) (by decide)
theorem upper_hci (s : String) : pyUpper s = "HCI" ↔ Spells s hci := pyUpper_iff s _ hci (by decide) (by decide)
theorem upper_wind (s : String) : pyUpper s = "WIND" ↔ Spells s wind := pyUpper_iff s _ wind (by decide) (by decide)
theorem upper_psp (s : String) : pyUpper s = "PSP" ↔ Spells s psp := pyUpper_iff s _ psp (by decide) (by decide)

/-! ### C34 -/

/-- C34: a frame/name pair is accepted iff the frame spells GSE or HCI and the name WIND or PSP in any letter
case; otherwise NotImplementedError. What is stored is the upper-case spelling. -/
theorem C34_frame_name (frame name : String) :
    ((Spells frame gse ∨ Spells frame hci) ∧ (Spells name wind ∨ Spells name psp) →
      ∃ f n, setFrameName frame name = .ok (f, n) ∧ (f = "GSE" ↔ Spells frame gse) ∧
        (f = "HCI" ↔ Spells frame hci) ∧ (n = "WIND" ↔ Spells name wind) ∧ (n = "PSP" ↔ Spells name psp)) ∧
    (¬ ((Spells frame gse ∨ Spells frame hci) ∧ (Spells name wind ∨ Spells name psp)) →
      setFrameName frame name = .error .notImplemented) := by
  simp only [← upper_gse, ← upper_hci, ← upper_wind, ← upper_psp]
  unfold setFrameName
  simp only [List.mem_cons, List.not_mem_nil, or_false]
  constructor
  · rintro ⟨h1, h2⟩
    rw [if_neg (not_not.mpr h1), if_neg (not_not.mpr h2)]
    exact ⟨_, _, rfl, Iff.rfl, Iff.rfl, Iff.rfl, Iff.rfl⟩
  · intro h
    by_cases h1 : pyUpper frame = "GSE" ∨ pyUpper frame = "HCI"
    · rw [if_neg (not_not.mpr h1), if_pos (fun h2 => h ⟨h1, h2⟩)]
    · rw [if_pos h1]

example : Spells "gSe" gse := by simp [Spells, gse]
example : ¬ (Spells "RTN" gse ∨ Spells "RTN" hci) := by
  simp [Spells, gse, hci]

/-- C34: in HCI the distance is |position| * R_sun. -/
theorem C34_hci (K : SCConst) (x y z : ℝ) :
    distance2sun K "HCI" (.ofReal x y z) =
      .ok (.fin (K.rs * Real.sqrt (x ^ 2 + y ^ 2 + z ^ 2) / K.unit)) := by
  unfold distance2sun V3.ofReal
  rw [if_neg (by decide), if_pos rfl]
  simp only [Fl.fin_mul, Fl.sq_fin, Fl.sumSkip_cons_fin, Fl.sumSkip_nil, Fl.zero_def, Fl.fin_add]
  rw [Fl.sqrt_fin _ (by positivity), Fl.fin_div _ _ K.unit_pos.ne']
  congr 3
  rw [show (x * K.rs) ^ 2 + ((y * K.rs) ^ 2 + ((z * K.rs) ^ 2 + 0)) = K.rs ^ 2 * (x ^ 2 + y ^ 2 + z ^ 2) by ring,
    Real.sqrt_mul (by positivity), Real.sqrt_sq K.rs_pos.le]

/-- C34: in GSE the distance is the norm of (AU - x Re, y Re, z Re); it is 1 AU at the Earth and always within
|position| * Re of 1 AU. -/
theorem C34_gse (K : SCConst) (x y z : ℝ) :
    ∃ d : ℝ, distance2sun K "GSE" (.ofReal x y z) = .ok (.fin (d / K.unit)) ∧ 0 ≤ d ∧
      d ^ 2 = (K.au - x * K.re) ^ 2 + (y * K.re) ^ 2 + (z * K.re) ^ 2 ∧
      |d - K.au| ≤ K.re * Real.sqrt (x ^ 2 + y ^ 2 + z ^ 2) ∧
      (x = 0 → y = 0 → z = 0 → d = K.au) := by
  have hau := K.au_pos
  refine ⟨Real.sqrt ((K.au - x * K.re) ^ 2 + (y * K.re) ^ 2 + (z * K.re) ^ 2), ?_, Real.sqrt_nonneg _,
    Real.sq_sqrt (by positivity), ?_, ?_⟩
  · unfold distance2sun V3.ofReal
    rw [if_pos rfl]
    simp only [Fl.fin_mul, Fl.fin_add, Fl.sq_fin, Fl.sumSkip_cons_fin, Fl.sumSkip_nil, Fl.zero_def]
    rw [Fl.sqrt_fin _ (by positivity), Fl.fin_div _ _ K.unit_pos.ne']
    congr 4
    ring
  · set N := Real.sqrt (x ^ 2 + y ^ 2 + z ^ 2) with hN
    have hN0 : 0 ≤ N := Real.sqrt_nonneg _
    have hN2 : N ^ 2 = x ^ 2 + y ^ 2 + z ^ 2 := Real.sq_sqrt (by positivity)
    have hx : |x| ≤ N := by
      rw [hN]; apply Real.abs_le_sqrt; nlinarith [sq_nonneg y, sq_nonneg z]
    have hxr := abs_le.mp hx
    have hre := K.re_pos
    have hkN : 0 ≤ K.re * N := by positivity
    have h1 : K.re * x ≤ K.re * N := mul_le_mul_of_nonneg_left hxr.2 hre.le
    have h2 : -(K.re * N) ≤ K.re * x := by
      have := mul_le_mul_of_nonneg_left hxr.1 hre.le; linarith
    have e : (K.au - x * K.re) ^ 2 + (y * K.re) ^ 2 + (z * K.re) ^ 2 =
        K.au ^ 2 - 2 * K.au * (K.re * x) + (K.re * N) ^ 2 := by
      rw [mul_pow K.re N, hN2]; ring
    rw [abs_le]
    constructor
    · have : K.au - K.re * N ≤ Real.sqrt ((K.au - x * K.re) ^ 2 + (y * K.re) ^ 2 + (z * K.re) ^ 2) := by
        apply Real.le_sqrt_of_sq_le
        rw [e]; nlinarith
      linarith
    · have : Real.sqrt ((K.au - x * K.re) ^ 2 + (y * K.re) ^ 2 + (z * K.re) ^ 2) ≤ K.au + K.re * N := by
        rw [Real.sqrt_le_iff]
        constructor
        · positivity
        · rw [e]; nlinarith
      linarith
  · rintro rfl rfl rfl
    simp [Real.sqrt_sq hau.le]

/-- C34: any other frame string is refused by `distance2sun` itself as well. -/
theorem C34_other_frame (K : SCConst) (frame : String) (pos : V3) (h1 : frame ≠ "GSE") (h2 : frame ≠ "HCI") :
    distance2sun K frame pos = .error .notImplemented := by
  unfold distance2sun; rw [if_neg h1, if_neg h2]

/-- C96 (violated): a missing position should give a missing distance; because the sum skips NaN, a position
with no measured component is reported to be at the centre of the Sun, in both frames. -/
theorem C96_missing_position_is_zero (K : SCConst) (frame : String) (h : frame = "GSE" ∨ frame = "HCI") :
    distance2sun K frame ⟨.nan, .nan, .nan⟩ = .ok (.fin 0) := by
  have hu := K.unit_pos.ne'
  rcases h with rfl | rfl
  · unfold distance2sun; rw [if_pos rfl]
    simp only [Fl.nan_mul, Fl.nan_add, Fl.sq_nan, Fl.sumSkip_cons_nan, Fl.sumSkip_nil, Fl.zero_def]
    rw [Fl.sqrt_fin _ le_rfl, Fl.fin_div _ _ hu]; simp
  · unfold distance2sun; rw [if_neg (by decide), if_pos rfl]
    simp only [Fl.nan_mul, Fl.sq_nan, Fl.sumSkip_cons_nan, Fl.sumSkip_nil, Fl.zero_def]
    rw [Fl.sqrt_fin _ le_rfl, Fl.fin_div _ _ hu]; simp

/-- C96: and a partly missing one is always reported closer to the Sun's centre than any completion. -/
theorem C96_partial_position (K : SCConst) (y z : ℝ) :
    distance2sun K "HCI" ⟨.nan, .fin y, .fin z⟩ = .ok (.fin (K.rs * Real.sqrt (y ^ 2 + z ^ 2) / K.unit)) := by
  unfold distance2sun
  rw [if_neg (by decide), if_pos rfl]
  simp only [Fl.nan_mul, Fl.sq_nan, Fl.sumSkip_cons_nan, Fl.fin_mul, Fl.sq_fin, Fl.sumSkip_cons_fin,
    Fl.sumSkip_nil, Fl.zero_def, Fl.fin_add]
  rw [Fl.sqrt_fin _ (by positivity), Fl.fin_div _ _ K.unit_pos.ne']
  congr 3
  rw [show (y * K.rs) ^ 2 + ((z * K.rs) ^ 2 + 0) = K.rs ^ 2 * (y ^ 2 + z ^ 2) by ring,
    Real.sqrt_mul (by positivity), Real.sqrt_sq K.rs_pos.le]

/-! ### C35 -/

/-- `key` names exactly one row of the table, with photospheric abundance `a` (dex) and uncertainty `u`. -/
def HasElement (tab : List ARow) (key : AKey) (a u : Fl) : Prop :=
  ∃ r, key ≠ .other ∧ tab.filter (fun r => r.matches key) = [r] ∧ r.phot = (a, u)

/-- missing uncertainties count as zero -/
def uncR : Fl → ℝ
  | .fin u => u
  | _ => 0

theorem getElement_ok {tab : List ARow} {key : AKey} {a u : Fl} (h : HasElement tab key a u) :
    getElement tab key "Photosphere" = .ok (a, u) := by
  obtain ⟨r, h1, h2, h3⟩ := h
  unfold getElement
  simp [h1, h2, h3]

/-- C35: which keys, kinds and years are accepted, and what each failure raises. -/
theorem C35_errors (tab : List ARow) (key : AKey) (kind : String) (year : Option Int) :
    (checkYear year = .ok 2009 ↔ year = some 2009) ∧ (checkYear year = .ok 2021 ↔ year = some 2021) ∧
    (checkYear year = .error .typeError ↔ year = none) ∧
    (year ≠ none → year ≠ some 2009 → year ≠ some 2021 → checkYear year = .error .valueError) ∧
    (kind ∉ ["Photosphere", "CI_chondrites", "Meteorites"] → getElement tab key kind = .error .keyError) ∧
    (kind ∈ ["Photosphere", "CI_chondrites", "Meteorites"] →
      (getElement tab .other kind = .error .valueError) ∧
      (key ≠ .other → (∀ r ∈ tab, r.matches key = false) → getElement tab key kind = .error .keyError) ∧
      getElement tab key "Meteorites" = getElement tab key "CI_chondrites") := by
  refine ⟨?_, ?_, ?_, ?_, ?_, ?_⟩
  · unfold checkYear; rcases year with _ | y
    · simp
    · by_cases h : y = 2009 ∨ y = 2021 <;> simp [h]
      rintro rfl; simp at h
  · unfold checkYear; rcases year with _ | y
    · simp
    · by_cases h : y = 2009 ∨ y = 2021 <;> simp [h]
      rintro rfl; simp at h
  · unfold checkYear; rcases year with _ | y
    · simp
    · by_cases h : y = 2009 ∨ y = 2021 <;> simp [h]
  · intro h1 h2 h3
    rcases year with _ | y
    · exact absurd rfl h1
    · unfold checkYear
      have : ¬ (y = 2009 ∨ y = 2021) := by
        rintro (rfl | rfl)
        · exact h2 rfl
        · exact h3 rfl
      simp [this]
  · intro h
    simp only [List.mem_cons, List.not_mem_nil, or_false, not_or] at h
    unfold getElement
    simp [h.1, h.2.1, h.2.2]
  · intro h
    simp only [List.mem_cons, List.not_mem_nil, or_false] at h
    refine ⟨?_, ?_, ?_⟩
    · unfold getElement
      rcases h with rfl | rfl | rfl <;> simp
    · intro hk hr
      have : tab.filter (fun r => r.matches key) = [] := by
        rw [List.filter_eq_nil_iff]; intro r hr'; simp [hr r hr']
      unfold getElement
      rcases h with rfl | rfl | rfl <;> simp [hk, this]
    · unfold getElement
      simp

/-- C35: an element with one row gives that row's entry of the requested kind; one with several rows is an
assertion failure, never an arbitrary choice. -/
theorem C35_lookup (tab : List ARow) (key : AKey) (hk : key ≠ .other) :
    (∀ r, tab.filter (fun r => r.matches key) = [r] →
      getElement tab key "Photosphere" = .ok r.phot ∧ getElement tab key "CI_chondrites" = .ok r.ci ∧
      getElement tab key "Meteorites" = .ok r.ci) ∧
    (2 ≤ (tab.filter (fun r => r.matches key)).length →
      ∀ kind ∈ ["Photosphere", "CI_chondrites", "Meteorites"],
        getElement tab key kind = .error .assertionError) := by
  constructor
  · intro r hr
    unfold getElement
    simp [hk, hr]
  · intro hl kind hkind
    rcases hf : tab.filter (fun r => r.matches key) with _ | ⟨a, _ | ⟨b, l⟩⟩
    · rw [hf] at hl; simp at hl
    · rw [hf] at hl; simp at hl
    · unfold getElement
      simp only [List.mem_cons, List.not_mem_nil, or_false] at hkind
      rcases hkind with rfl | rfl | rfl <;> simp [hk, hf]

theorem sq_nanToZero (u : Fl) (h : u = .nan ∨ ∃ r, u = .fin r) : Fl.sq (nanToZero u) = .fin (uncR u ^ 2) := by
  rcases h with rfl | ⟨r, rfl⟩ <;> simp [nanToZero, uncR]

/-- C35: for a denominator other than the string 'H' the ratio is 10^(A_X - A_Y) and its uncertainty
ratio * ln 10 * sqrt(sx^2 + sy^2), missing uncertainties counting as zero. -/
theorem C35_ratio (tab : List ARow) (num den : AKey) (a b : ℝ) (ua ub : Fl) (hd : den ≠ .sym "H")
    (h1 : HasElement tab num (.fin a) ua) (h2 : HasElement tab den (.fin b) ub)
    (hua : ua = .nan ∨ ∃ r, ua = .fin r) (hub : ub = .nan ∨ ∃ r, ub = .fin r) :
    abundanceRatio tab num den = .ok (.fin ((10 : ℝ) ^ (a - b)),
      .fin ((10 : ℝ) ^ (a - b) * Real.log 10 * Real.sqrt (uncR ua ^ 2 + uncR ub ^ 2))) := by
  unfold abundanceRatio
  simp only [getElement_ok h1, getElement_ok h2, bind, Except.bind]
  rw [if_pos hd]
  simp only [pure, Except.pure]
  rw [sq_nanToZero ua hua, sq_nanToZero ub hub]
  simp only [Fl.fin_sub, exp10, Fl.fin_mul, Fl.fin_add]
  rw [Fl.sqrt_fin _ (by positivity)]
  simp

/-- C35: with the string 'H' as denominator the ratio is relative to 12 dex; a missing uncertainty is *not*
replaced but propagated as NaN. -/
theorem C35_hydrogen (tab : List ARow) (num : AKey) (a : ℝ) (ua : Fl) (h1 : HasElement tab num (.fin a) ua) :
    ∃ u, abundanceRatio tab num (.sym "H") = .ok (.fin ((10 : ℝ) ^ (a - 12)), u) ∧
      (ua = .nan → u = .nan) ∧
      (∀ s, ua = .fin s → u = .fin ((10 : ℝ) ^ (a - 12) * Real.log 10 * s)) := by
  refine ⟨exp10 (Fl.fin a - .fin 12) * .fin (Real.log 10) * ua, ?_, ?_, ?_⟩
  · unfold abundanceRatio
    simp only [getElement_ok h1, bind, Except.bind]
    rw [if_neg (by simp)]
    simp [pure, Except.pure, exp10]
  · rintro rfl; simp
  · rintro s rfl; simp [exp10]

/-- C35: exchanging numerator and denominator gives the reciprocal, and ratios multiply along chains (all three
elements other than the string 'H'); with 'H' defined as 12 dex the special path agrees with the general one. -/
theorem C35_reciprocal_chain (tab : List ARow) (X Y Z : AKey) (a b c : ℝ) (ua ub uc : Fl)
    (hX : X ≠ .sym "H") (hY : Y ≠ .sym "H") (hZ : Z ≠ .sym "H")
    (h1 : HasElement tab X (.fin a) ua) (h2 : HasElement tab Y (.fin b) ub) (h3 : HasElement tab Z (.fin c) uc)
    (hua : ua = .nan ∨ ∃ r, ua = .fin r) (hub : ub = .nan ∨ ∃ r, ub = .fin r)
    (huc : uc = .nan ∨ ∃ r, uc = .fin r) :
    ∃ rxy ryx ryz rxz sxy syx syz sxz : ℝ,
      abundanceRatio tab X Y = .ok (.fin rxy, .fin sxy) ∧ abundanceRatio tab Y X = .ok (.fin ryx, .fin syx) ∧
      abundanceRatio tab Y Z = .ok (.fin ryz, .fin syz) ∧ abundanceRatio tab X Z = .ok (.fin rxz, .fin sxz) ∧
      rxy * ryx = 1 ∧ rxy * ryz = rxz ∧ sxy / rxy = syx / ryx := by
  have h10 : (0 : ℝ) < 10 := by norm_num
  refine ⟨_, _, _, _, _, _, _, _, C35_ratio tab X Y a b ua ub hY h1 h2 hua hub,
    C35_ratio tab Y X b a ub ua hX h2 h1 hub hua, C35_ratio tab Y Z b c ub uc hZ h2 h3 hub huc,
    C35_ratio tab X Z a c ua uc hZ h1 h3 hua huc, ?_, ?_, ?_⟩
  · rw [← Real.rpow_add h10]; simp
  · rw [← Real.rpow_add h10]; congr 1; ring
  · rw [mul_assoc, mul_assoc, mul_div_cancel_left₀ _ (Real.rpow_pos_of_pos h10 _).ne',
      mul_div_cancel_left₀ _ (Real.rpow_pos_of_pos h10 _).ne', add_comm]

/-- the general path with hydrogen addressed by its atomic number agrees with the special one when hydrogen is
listed at 12 dex without uncertainty -/
theorem C35_hydrogen_agrees (tab : List ARow) (num : AKey) (a s : ℝ) (uH : Fl) (hs : 0 ≤ s)
    (h1 : HasElement tab num (.fin a) (.fin s)) (hH : HasElement tab (.z 1) (.fin 12) uH)
    (huH : uH = .nan ∨ uH = .fin 0) :
    abundanceRatio tab num (.z 1) = abundanceRatio tab num (.sym "H") := by
  obtain ⟨u, e, -, e2⟩ := C35_hydrogen tab num a _ h1
  rw [e, e2 s rfl, C35_ratio tab num (.z 1) a 12 _ uH (by simp) h1 hH (Or.inr ⟨s, rfl⟩)
    (by rcases huH with h | h <;> simp [h])]
  have : uncR uH = 0 := by rcases huH with rfl | rfl <;> rfl
  rw [this]
  simp [uncR, Real.sqrt_sq hs]

/-- non-vacuity: a three element table -/
def exTab : List ARow :=
  [⟨1, "H", (.fin 12, .nan), (.fin 8.22, .fin 0.04)⟩, ⟨8, "O", (.fin 8.69, .fin 0.04), (.fin 8.39, .fin 0.04)⟩,
   ⟨26, "Fe", (.fin 7.46, .fin 0.04), (.fin 7.46, .fin 0.02)⟩]
example : HasElement exTab (.sym "Fe") (.fin 7.46) (.fin 0.04) ∧ HasElement exTab (.z 1) (.fin 12) .nan ∧
    HasElement exTab (.sym "O") (.fin 8.69) (.fin 0.04) := by
  refine ⟨⟨⟨26, "Fe", (.fin 7.46, .fin 0.04), (.fin 7.46, .fin 0.02)⟩, by simp, ?_, rfl⟩,
    ⟨⟨1, "H", (.fin 12, .nan), (.fin 8.22, .fin 0.04)⟩, by simp, ?_, rfl⟩,
    ⟨⟨8, "O", (.fin 8.69, .fin 0.04), (.fin 8.39, .fin 0.04)⟩, by simp, ?_, rfl⟩⟩ <;>
    simp [exTab, ARow.matches]

end
end SW
