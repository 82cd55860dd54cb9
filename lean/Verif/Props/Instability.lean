import Verif.Instability

/-!
# C60, C108, C109: stability bins
-/

namespace SW
namespace Insta

open Classical

/-- the measurement exceeds the threshold of an instability: a threshold exists and the anisotropy lies strictly beyond it -/
def Exceeds (p : Kind → Abc) (beta ani : Fl) (k : Kind) : Prop := test k ani (threshold beta (p k))

/-- instabilities of large anisotropy -/
def High : Kind → Prop
  | .AIC => True
  | .MM => True
  | _ => False

/-- the tables: exponents positive, sign of `a` by kind, `b = 1` only for OFI whose pole is below zero -/
theorem params_sign {g : Int} {p : Kind → Abc} (h : params g = .ok p) (k : Kind) :
    0 < (p k).b ∧ (High k → 0 < (p k).a ∧ (p k).b ≠ 1) ∧ (¬ High k → (p k).a < 0 ∧ ((p k).b ≠ 1 ∨ (p k).c < 0)) := by
  unfold params at h
  split at h
  · obtain rfl := Except.ok.inj h
    cases k <;> simp [High] <;> norm_num
  · split at h
    · obtain rfl := Except.ok.inj h
      cases k <;> simp [High] <;> norm_num
    · split at h
      · obtain rfl := Except.ok.inj h
        cases k <;> simp [High] <;> norm_num
      · cases h

theorem one_add (x : ℝ) : (1 : Fl) + Fl.fin x = Fl.fin (1 + x) := rfl

/-- the power in the threshold is NaN, zero, positive or infinite, when the base cannot be negative at `b = 1` -/
theorem npow_cases (x : Fl) (b : ℝ) (hb : 0 < b) (h : b ≠ 1 ∨ ¬ Fl.lt x 0) :
    npow x b = Fl.nan ∨ npow x b = Fl.pinf ∨ ∃ y, 0 ≤ y ∧ npow x b = Fl.fin y := by
  unfold npow
  by_cases hb1 : b = 1
  · simp only [hb1, if_true]
    have h' := h.resolve_left (fun hh => hh hb1)
    cases x with
    | nan => exact Or.inl rfl
    | pinf => exact Or.inr (Or.inl rfl)
    | ninf => exact absurd trivial h'
    | fin a => exact Or.inr (Or.inr ⟨a, not_lt.mp h', rfl⟩)
  · simp only [hb1, if_false]
    cases x with
    | nan => exact Or.inl rfl
    | pinf => simp [Fl.rpow, not_lt.mpr hb.le]
    | ninf => simp [Fl.rpow, not_lt.mpr hb.le]
    | fin a =>
      unfold Fl.rpow
      by_cases h1 : a < 0
      · simp [h1]
      · by_cases h2 : a = 0
        · right; right
          refine ⟨0, le_refl 0, ?_⟩
          simp [h2, not_lt.mpr hb.le]
        · right; right
          exact ⟨a ^ b, Real.rpow_nonneg (not_lt.mp h1) b, by simp [h1, h2]⟩

/-- a threshold is missing, at least 1 (AIC, MM) or at most 1 (FMW, OFI) -/
theorem threshold_side {g : Int} {p : Kind → Abc} (h : params g = .ok p) (beta : Fl) (hb : ¬ Fl.lt beta 0) (k : Kind) :
    threshold beta (p k) = Fl.nan ∨ (High k ∧ Fl.le 1 (threshold beta (p k))) ∨
      (¬ High k ∧ Fl.le (threshold beta (p k)) 1) := by
  obtain ⟨h1, h2, h3⟩ := params_sign h k
  unfold threshold
  have hc : (p k).b ≠ 1 ∨ ¬ Fl.lt (beta - Fl.fin (p k).c) 0 := by
    by_cases hk : High k
    · exact Or.inl (h2 hk).2
    · rcases (h3 hk).2 with hh | hh
      · exact Or.inl hh
      · right
        cases beta with
        | nan => exact id
        | pinf => exact id
        | ninf => exact absurd trivial hb
        | fin b =>
          have hb' : ¬ b < 0 := hb
          show ¬ (b + -(p k).c < 0)
          intro hlt
          linarith
  rcases npow_cases (beta - Fl.fin (p k).c) (p k).b h1 hc with e | e | ⟨y, hy, e⟩
  · left; rw [e]; rfl
  · right
    rw [e, show Fl.fin (p k).a / Fl.pinf = Fl.fin 0 from rfl, one_add]
    by_cases hk : High k
    · exact Or.inl ⟨hk, by show (1 : ℝ) ≤ 1 + 0; norm_num⟩
    · exact Or.inr ⟨hk, by show (1 : ℝ) + 0 ≤ 1; norm_num⟩
  · right
    rw [e]
    rcases hy.lt_or_eq with hy | hy
    · rw [Fl.fin_div _ _ hy.ne', one_add]
      by_cases hk : High k
      · left
        refine ⟨hk, ?_⟩
        have : 0 < (p k).a / y := div_pos (h2 hk).1 hy
        show (1 : ℝ) ≤ 1 + _
        linarith
      · right
        refine ⟨hk, ?_⟩
        have : (p k).a / y < 0 := div_neg_of_neg_of_pos (h3 hk).1 hy
        show (1 : ℝ) + _ ≤ 1
        linarith
    · subst hy
      by_cases hk : High k
      · left
        refine ⟨hk, ?_⟩
        have : Fl.fin (p k).a / Fl.fin 0 = Fl.pinf := by
          show Fl.div _ _ = _
          unfold Fl.div; simp [(h2 hk).1]
        rw [this]; trivial
      · right
        refine ⟨hk, ?_⟩
        have : Fl.fin (p k).a / Fl.fin 0 = Fl.ninf := by
          show Fl.div _ _ = _
          unfold Fl.div; simp [(h3 hk).1, not_lt.mpr (h3 hk).1.le]
        rw [this]; trivial

/-- exceeding a threshold of large anisotropy needs anisotropy above 1, of small anisotropy below 1 -/
theorem exceeds_side {g : Int} {p : Kind → Abc} (h : params g = .ok p) (beta ani : Fl) (hb : ¬ Fl.lt beta 0) (k : Kind)
    (he : Exceeds p beta ani k) : (High k ∧ Fl.lt 1 ani) ∨ (¬ High k ∧ Fl.lt ani 1) := by
  unfold Exceeds at he
  rcases threshold_side h beta hb k with e | ⟨hk, e⟩ | ⟨hk, e⟩
  · exfalso
    rw [e] at he
    cases k <;> cases ani <;> exact he
  · left
    refine ⟨hk, ?_⟩
    generalize threshold beta (p k) = t at *
    have hlt : Fl.lt t ani := by cases k <;> first | exact he | exact absurd hk id
    cases t <;> cases ani <;> first | trivial | exact absurd hlt id | exact absurd e id | exact lt_of_le_of_lt e hlt
  · right
    refine ⟨hk, ?_⟩
    generalize threshold beta (p k) = t at *
    have hlt : Fl.lt ani t := by cases k <;> first | exact he | exact absurd trivial hk
    cases t <;> cases ani <;> first | trivial | exact absurd hlt id | exact absurd e id | exact lt_of_lt_of_le hlt e

theorem not_both {x : Fl} (h1 : Fl.lt 1 x) (h2 : Fl.lt x 1) : False := by
  cases x with
  | nan => exact h1
  | pinf => exact h2
  | ninf => exact h1
  | fin a => exact absurd (lt_trans (show (1 : ℝ) < a from h1) h2) (lt_irrefl _)

theorem initial_some {p : Kind → Abc} {beta ani : Fl} {k : Kind} (h : initial p beta ani k = some true) :
    Exceeds p beta ani k := by
  unfold initial at h
  simp only [] at h
  split at h
  · cases h
  · have := Option.some.inj h
    exact of_decide_eq_true this

theorem initial_iff {p : Kind → Abc} {beta ani : Fl} {k : Kind} :
    initial p beta ani k = some true ↔ Exceeds p beta ani k := by
  refine ⟨initial_some, ?_⟩
  intro h
  unfold initial
  have : ¬ (threshold beta (p k)).isNaN := by
    intro hn
    rw [Fl.isNaN_iff] at hn
    unfold Exceeds at h
    rw [hn] at h
    cases k <;> cases ani <;> exact h
  simp only [this, if_false]
  exact congrArg some (decide_eq_true h)

/-- a table entry by entry -/
def table (a f m o : Option Bool) : Kind → Option Bool
  | .AIC => a
  | .FMW => f
  | .MM => m
  | .OFI => o

theorem fill_table : ∀ a f m o : Option Bool, ¬ (a = some true ∧ f = some true) → ¬ (a = some true ∧ o = some true) →
    ¬ (m = some true ∧ f = some true) → ¬ (m = some true ∧ o = some true) →
    fillAll (table a f m o) .AIC = some (a.getD false) ∧ fillAll (table a f m o) .FMW = some (f.getD false) ∧
    fillAll (table a f m o) .MM = some (m.getD false) ∧ fillAll (table a f m o) .OFI = some (o.getD false) := by
  rintro (_ | _ | _) (_ | _ | _) (_ | _ | _) (_ | _ | _) h1 h2 h3 h4 <;>
    first
    | exact ⟨rfl, rfl, rfl, rfl⟩
    | exact absurd ⟨rfl, rfl⟩ h1
    | exact absurd ⟨rfl, rfl⟩ h2
    | exact absurd ⟨rfl, rfl⟩ h3
    | exact absurd ⟨rfl, rfl⟩ h4

/-- the filled table: if no high instability occurs together with a low one, missing entries become False -/
theorem fillAll_eq (st : Kind → Option Bool)
    (h : ∀ j k, High j → ¬ High k → ¬ (st j = some true ∧ st k = some true)) (k : Kind) :
    fillAll st k = some ((st k).getD false) := by
  have e : st = table (st .AIC) (st .FMW) (st .MM) (st .OFI) := by funext k; cases k <;> rfl
  have := fill_table (st .AIC) (st .FMW) (st .MM) (st .OFI) (h .AIC .FMW trivial id) (h .AIC .OFI trivial id)
    (h .MM .FMW trivial id) (h .MM .OFI trivial id)
  rw [← e] at this
  cases k
  · exact this.1
  · exact this.2.1
  · exact this.2.2.1
  · exact this.2.2.2

/-- C60: every row with non-negative (or missing) beta gets exactly one bin, never an error: unstable to mirror mode 4, to
AIC only 3, to oblique firehose 0, to FMW only 1, otherwise 2; the high- and low-anisotropy instabilities exclude each other. -/
theorem C60_bins {g : Int} {p : Kind → Abc} (h : params g = .ok p) (beta ani : Fl) (hb : ¬ Fl.lt beta 0) :
    ∃ b, stability 1 g beta ani = .ok b ∧
      (b = 4 ↔ Exceeds p beta ani .MM) ∧
      (b = 3 ↔ (Exceeds p beta ani .AIC ∧ ¬ Exceeds p beta ani .MM)) ∧
      (b = 0 ↔ Exceeds p beta ani .OFI) ∧
      (b = 1 ↔ (Exceeds p beta ani .FMW ∧ ¬ Exceeds p beta ani .OFI)) ∧
      (b = 2 ↔ ∀ k, ¬ Exceeds p beta ani k) ∧
      (b = 0 ∨ b = 1 ∨ b = 2 ∨ b = 3 ∨ b = 4) ∧
      (3 ≤ b → Fl.lt 1 ani) ∧ (b ≤ 1 → Fl.lt ani 1) := by
  have hside := exceeds_side h beta ani hb
  have hexc : ∀ j k, High j → ¬ High k → ¬ (Exceeds p beta ani j ∧ Exceeds p beta ani k) := by
    rintro j k hj hk ⟨h1, h2⟩
    have e1 := (hside j h1).resolve_right (fun hh => hh.1 hj)
    have e2 := (hside k h2).resolve_left (fun hh => hk hh.1)
    exact not_both e1.2 e2.2
  have hfill := fillAll_eq (initial p beta ani) (by
    rintro j k hj hk ⟨h1, h2⟩
    exact hexc j k hj hk ⟨initial_some h1, initial_some h2⟩)
  have hu : isUnstable p beta ani = .ok (fun k => decide (Exceeds p beta ani k)) := by
    unfold isUnstable
    simp only [hfill, Option.isSome_some, List.all_eq_true, implies_true, if_true, Option.getD_some]
    congr 1
    funext k
    by_cases hE : Exceeds p beta ani k
    · rw [initial_iff.mpr hE]; simp [hE]
    · have : initial p beta ani k ≠ some true := fun hh => hE (initial_iff.mp hh)
      rcases hi : initial p beta ani k with _ | _ | _
      · simp [hE]
      · simp [hE]
      · exact absurd hi this
  have hst : stability 1 g beta ani = bin (fun k => decide (Exceeds p beta ani k)) := by
    unfold stability
    simp only [h, hu, bind, Except.bind, iteritems]
    rfl
  rw [hst]
  have hall : (∀ k, ¬ Exceeds p beta ani k) ↔ (¬ Exceeds p beta ani .AIC ∧ ¬ Exceeds p beta ani .FMW ∧
      ¬ Exceeds p beta ani .MM ∧ ¬ Exceeds p beta ani .OFI) :=
    ⟨fun hh => ⟨hh _, hh _, hh _, hh _⟩, fun ⟨a, b, c, d⟩ k => by cases k <;> assumption⟩
  rw [hall]
  have x1 := hexc .AIC .FMW trivial id
  have x2 := hexc .AIC .OFI trivial id
  have x3 := hexc .MM .FMW trivial id
  have x4 := hexc .MM .OFI trivial id
  have s1 := fun hh => ((hside .AIC hh).resolve_right (fun q => q.1 trivial)).2
  have s2 := fun hh => ((hside .MM hh).resolve_right (fun q => q.1 trivial)).2
  have s3 := fun hh => ((hside .FMW hh).resolve_left (fun q => q.1)).2
  have s4 := fun hh => ((hside .OFI hh).resolve_left (fun q => q.1)).2
  unfold bin
  simp only [kinds]
  by_cases a : Exceeds p beta ani .AIC <;> by_cases f : Exceeds p beta ani .FMW <;>
    by_cases m : Exceeds p beta ani .MM <;> by_cases o : Exceeds p beta ani .OFI <;>
    simp_all

/-- C60: other growth rates raise KeyError. -/
theorem C60_growth (v : Nat) (g : Int) (hg : g ≠ -4 ∧ g ≠ -3 ∧ g ≠ -2) (beta ani : Fl) :
    stability v g beta ani = .error .keyError := by
  unfold stability params
  simp [hg.1, hg.2.1, hg.2.2]
  rfl

/-- C60: above its pole every threshold moves strictly towards 1 with beta: AIC and MM decrease and stay above 1, FMW and OFI
increase and stay below 1. At or below the pole of a fractional power the threshold is missing resp. infinite. -/
theorem C60_threshold {g : Int} {p : Kind → Abc} (h : params g = .ok p) (k : Kind) (x y : ℝ) (hx : (p k).c < x) (hxy : x < y) :
    ∃ s t, threshold (.fin x) (p k) = .fin s ∧ threshold (.fin y) (p k) = .fin t ∧
      (High k → 1 < t ∧ t < s) ∧ (¬ High k → s < t ∧ t < 1) := by
  obtain ⟨h1, h2, h3⟩ := params_sign h k
  have hval : ∀ z, (p k).c < z → threshold (.fin z) (p k) = .fin (1 + (p k).a / (z - (p k).c) ^ (p k).b) := by
    intro z hz
    have hz' : 0 < z - (p k).c := by linarith
    unfold threshold npow
    rw [show Fl.fin z - Fl.fin (p k).c = Fl.fin (z - (p k).c) from congrArg Fl.fin (sub_eq_add_neg _ _).symm]
    by_cases hb1 : (p k).b = 1
    · simp only [hb1, if_true, Real.rpow_one]
      rw [Fl.fin_div _ _ hz'.ne', one_add]
    · simp only [hb1, if_false]
      rw [Fl.rpow_fin _ _ hz', Fl.fin_div _ _ (Real.rpow_pos_of_pos hz' _).ne', one_add]
  have hy : (p k).c < y := lt_trans hx hxy
  have px : 0 < (x - (p k).c) ^ (p k).b := Real.rpow_pos_of_pos (by linarith) _
  have py : 0 < (y - (p k).c) ^ (p k).b := Real.rpow_pos_of_pos (by linarith) _
  have pxy : (x - (p k).c) ^ (p k).b < (y - (p k).c) ^ (p k).b := Real.rpow_lt_rpow (by linarith) (by linarith) h1
  refine ⟨_, _, hval x hx, hval y hy, ?_, ?_⟩
  · intro hk
    have ha := (h2 hk).1
    have e1 : 0 < (p k).a / (y - (p k).c) ^ (p k).b := div_pos ha py
    have e2 := div_lt_div_of_pos_left ha px pxy
    exact ⟨by linarith, by linarith⟩
  · intro hk
    have ha := (h3 hk).1
    have e1 : (p k).a / (y - (p k).c) ^ (p k).b < 0 := div_neg_of_neg_of_pos ha py
    have e2 := div_lt_div_of_pos_left (neg_pos.mpr ha) px pxy
    rw [neg_div, neg_div] at e2
    exact ⟨by linarith, by linarith⟩

/-- the fits of Verscharen et al. (2016), table 1: for each growth rate the coefficients (a, b, c) of AIC, FMW, MM, OFI -/
noncomputable def published : List (Int × List (ℝ × ℝ × ℝ)) :=
  [(-2, [(649/1000, 400/1000, 0), (-647/1000, 583/1000, 713/1000), (1040/1000, 633/1000, -12/1000), (-1447/1000, 1, -148/1000)]),
   (-3, [(437/1000, 428/1000, -3/1000), (-497/1000, 566/1000, 543/1000), (801/1000, 763/1000, -63/1000),
     (-1390/1000, 1005/1000, -111/1000)]),
   (-4, [(367/1000, 364/1000, 11/1000), (-408/1000, 529/1000, 410/1000), (702/1000, 674/1000, -9/1000),
     (-1454/1000, 1023/1000, -178/1000)])]

/-- C60: for the three tabulated growth rates, above the pole `c` every threshold is `1 + a (beta - c)^(-b)` with the
published coefficients. -/
theorem C60_published (g : Int) (rows : List (ℝ × ℝ × ℝ)) (hg : (g, rows) ∈ published) :
    ∃ p, params g = .ok p ∧ ∀ (k : Kind) (i : Nat) (a b c x : ℝ), kinds[i]? = some k → rows[i]? = some (a, b, c) → c < x →
      threshold (.fin x) (p k) = .fin (1 + a * (x - c) ^ (-b)) := by
  have key : ∀ (q : Abc) (a b c x : ℝ), q.a = a → q.b = b → q.c = c → c < x →
      threshold (.fin x) q = .fin (1 + a * (x - c) ^ (-b)) := by
    rintro q a b c x rfl rfl rfl hx
    have hz' : 0 < x - q.c := by linarith
    unfold threshold npow
    rw [show Fl.fin x - Fl.fin q.c = Fl.fin (x - q.c) from congrArg Fl.fin (sub_eq_add_neg _ _).symm]
    rw [Real.rpow_neg hz'.le, ← div_eq_mul_inv]
    by_cases hb1 : q.b = 1
    · simp only [hb1, if_true, Real.rpow_one]
      rw [Fl.fin_div _ _ hz'.ne', one_add]
    · simp only [hb1, if_false]
      rw [Fl.rpow_fin _ _ hz', Fl.fin_div _ _ (Real.rpow_pos_of_pos hz' _).ne', one_add]
  simp only [published, List.mem_cons, Prod.mk.injEq, List.not_mem_nil, or_false] at hg
  rcases hg with ⟨rfl, rfl⟩ | ⟨rfl, rfl⟩ | ⟨rfl, rfl⟩ <;>
  · refine ⟨_, rfl, ?_⟩
    intro k i a b c x hk hr hx
    rcases i with _ | _ | _ | _ | i <;>
      first
      | (simp [kinds] at hk; done)
      | (simp only [kinds, List.getElem?_cons_zero, List.getElem?_cons_succ, Option.some.injEq, Prod.mk.injEq] at hk hr
         obtain ⟨rfl, rfl, rfl⟩ := hr
         subst hk
         exact key _ _ _ _ x (by norm_num) (by norm_num) (by norm_num) hx)

/-- non-vacuity: with beta = 1.853 and growth rate -2 the firehose threshold is 1 - 1.447/2.001; an anisotropy of 0.1 is
oblique-firehose unstable (bin 0) -/
example : stability 1 (-2) (.fin 1.853) (.fin 0.1) = .ok 0 := by
  have hp : ∃ p, params (-2) = .ok p ∧ p .OFI = ⟨-1.447, 1.0, -0.148⟩ := ⟨_, rfl, rfl⟩
  obtain ⟨p, hp, ho⟩ := hp
  obtain ⟨b, hb, _, _, h0, _⟩ := C60_bins hp (.fin 1.853) (.fin 0.1) (by show ¬ ((1.853 : ℝ) < 0); norm_num)
  rw [hb, h0.mpr]
  unfold Exceeds test threshold npow
  rw [ho]
  simp only [show (1.0 : ℝ) = 1 by norm_num, if_true]
  rw [show Fl.fin 1.853 - Fl.fin (-0.148) = Fl.fin (1.853 + -(-0.148)) from rfl, Fl.fin_div _ _ (by norm_num), one_add]
  show (0.1 : ℝ) < _
  norm_num

/-! ### Violations -/

/-- C108 (violated): with the pandas versions the package requires (>= 2.0) no stability condition can be constructed and no
contour drawn, whatever the data. -/
theorem C108_pandas2 (v : Nat) (hv : 2 ≤ v) :
    (∀ g beta ani, ∃ e, stability v g beta ani = .error e) ∧
    (∀ g beta ani, (g = -4 ∨ g = -3 ∨ g = -2) → stability v g beta ani = .error .attributeError) ∧
    (∀ {α : Type} (kinds : List String) (d : α), ∃ e, plotContours v kinds d = .error e) := by
  have hi : iteritems v = .error .attributeError := by unfold iteritems; rw [if_neg (by omega)]
  have hok : ∀ g beta ani, (g = -4 ∨ g = -3 ∨ g = -2) → stability v g beta ani = .error .attributeError := by
    intro g beta ani hg
    unfold stability params
    rcases hg with rfl | rfl | rfl <;> simp [hi, bind, Except.bind]
  refine ⟨?_, hok, ?_⟩
  · intro g beta ani
    by_cases hg : g = -4 ∨ g = -3 ∨ g = -2
    · exact ⟨_, hok g beta ani hg⟩
    · push Not at hg
      exact ⟨_, C60_growth v g hg beta ani⟩
  · intro α ks d
    unfold plotContours
    split
    · simp only [hi, bind, Except.bind, pure, Except.pure]
      exact ⟨_, rfl⟩
    · exact ⟨_, rfl⟩

/-- C109 (violated): a row whose beta or anisotropy is missing is labelled "Stable" (bin 2). -/
theorem C109_missing_is_stable {g : Int} {p : Kind → Abc} (h : params g = .ok p) :
    (∀ ani, stability 1 g .nan ani = .ok 2) ∧
    (∀ beta, ¬ Fl.lt beta 0 → stability 1 g beta .nan = .ok 2) := by
  constructor
  · intro ani
    obtain ⟨b, hb, _, _, _, _, h2, _⟩ := C60_bins h .nan ani id
    rw [hb, h2.mpr]
    intro k hk
    rcases exceeds_side h .nan ani id k hk with ⟨_, _⟩ | ⟨_, _⟩ <;>
    · unfold Exceeds at hk
      have : threshold .nan (p k) = .nan := by
        unfold threshold npow
        rw [show Fl.nan - Fl.fin (p k).c = Fl.nan from rfl]
        split <;> rfl
      rw [this] at hk
      cases k <;> cases ani <;> exact hk
  · intro beta hbeta
    obtain ⟨b, hb, _, _, _, _, h2, _⟩ := C60_bins h beta .nan hbeta
    rw [hb, h2.mpr]
    intro k hk
    rcases exceeds_side h beta .nan hbeta k hk with ⟨_, e⟩ | ⟨_, e⟩ <;> exact e

/-- C109 (violated): in the table legend the row labelled AIC holds the mirror-mode lines, the row labelled FMW the AIC lines
and the row labelled MM the FMW lines, for all lines and all three growth-rate columns; only OFI is right. -/
theorem C109_legend {H : Type} (im : Int → Kind → H) (col : Nat) (hc : 1 ≤ col ∧ col ≤ 3) :
    let gr : Int := -1 - col
    legendCell legendLabels 1 0 = some "$\\mathrm{AIC}$" ∧ legendCell (legendHandles im) 1 col = some (some (im gr .MM)) ∧
    legendCell legendLabels 2 0 = some "$\\mathrm{FMW}$" ∧ legendCell (legendHandles im) 2 col = some (some (im gr .AIC)) ∧
    legendCell legendLabels 3 0 = some "$\\mathrm{MM}$" ∧ legendCell (legendHandles im) 3 col = some (some (im gr .FMW)) ∧
    legendCell legendLabels 4 0 = some "$\\mathrm{OFI}$" ∧ legendCell (legendHandles im) 4 col = some (some (im gr .OFI)) := by
  obtain ⟨h1, h2⟩ := hc
  have : col = 1 ∨ col = 2 ∨ col = 3 := by omega
  rcases this with rfl | rfl | rfl <;> exact ⟨rfl, rfl, rfl, rfl, rfl, rfl, rfl, rfl⟩

end Insta
end SW
