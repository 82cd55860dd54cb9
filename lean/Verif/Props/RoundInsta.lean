import Verif.Props.RoundPhys2
import Verif.Props.Instability
import Verif.RoundInsta

/-!
# C282: stability bins with rounding
-/

namespace SW
namespace Rnd

open Classical Insta

/-- what is used of the power function for its order: non-negative, and not decreasing in a non-negative base -/
structure PowerMono (pw : ℝ → ℝ → ℝ) : Prop where
  nonneg : ∀ x b, 0 ≤ x → 0 ≤ pw x b
  mono : ∀ x y b, 0 < b → 0 ≤ x → x ≤ y → pw x b ≤ pw y b

/-- the correctly rounded power meets it -/
theorem powerMono_rounded (R : Rounding) : PowerMono fun x b => R.r (x ^ b) :=
  ⟨fun _ b hx => r_nonneg R (Real.rpow_nonneg hx b), fun _ _ _ hb hx h => R.mono (Real.rpow_le_rpow hx h hb.le)⟩

/-- the row exceeds the computed threshold of an instability -/
def ExceedsR (R : Rounding) (pw : ℝ → ℝ → ℝ) (p : Kind → Abc) (beta ani : Fl) (k : Kind) : Prop := test k ani (thresholdR R pw beta (p k))

section
variable {n : ℕ} (hn : 1 ≤ n)

theorem fmt_pos {x : ℝ} (hx : 0 < x) : 0 < (fmt n hn).r x := near_pos (by have := ulp_range hn; linarith [this.2]) (near_one hn hx)

theorem fmt_neg {x : ℝ} (hx : x < 0) : (fmt n hn).r x < 0 := by
  have := fmt_pos hn (neg_pos.mpr hx)
  rw [(fmt n hn).odd] at this
  linarith

theorem read_sign (h3 : 3 ≤ n) {g : Int} {p : Kind → Abc} (h : params g = .ok p) (k : Kind) :
    0 < (readIn (fmt n hn) (p k)).b ∧ (High k → 0 < (readIn (fmt n hn) (p k)).a) ∧ (¬ High k → (readIn (fmt n hn) (p k)).a < 0) ∧
      ((readIn (fmt n hn) (p k)).b ≠ 1 ∨ (readIn (fmt n hn) (p k)).c ≤ 0) := by
  obtain ⟨h1, h2, h4⟩ := params_sign h k
  refine ⟨fmt_pos hn h1, fun hk => fmt_pos hn (h2 hk).1, fun hk => fmt_neg hn (h4 hk).1, ?_⟩
  have small : (p k).b ≤ 4 / 5 ∨ (p k).c ≤ 0 := by
    unfold params at h
    split at h
    · obtain rfl := Except.ok.inj h
      cases k <;> norm_num
    · split at h
      · obtain rfl := Except.ok.inj h
        cases k <;> norm_num
      · split at h
        · obtain rfl := Except.ok.inj h
          cases k <;> norm_num
        · cases h
  rcases small with hs | hs
  · left
    have e := r_rel hn (p k).b
    have u : ulp n ≤ 1 / 8 := by
      unfold ulp
      rw [zpow_neg, zpow_natCast, one_div]
      have : (2 : ℝ) ^ 3 ≤ 2 ^ n := pow_le_pow_right₀ (by norm_num) h3
      exact (inv_le_inv₀ (by positivity) (by norm_num)).mpr (by linarith)
    rw [abs_of_pos h1] at e
    have := (abs_le.mp e).2
    have : (fmt n hn).r (p k).b < 1 := by nlinarith
    exact this.ne
  · right
    show (fmt n hn).r (p k).c ≤ 0
    have := (fmt n hn).mono hs
    rwa [r_zero] at this

end

/-- the power is NaN, infinite or not negative, when the base cannot be negative at power one -/
theorem npowR_cases {pw : ℝ → ℝ → ℝ} (hw : PowerMono pw) (x : Fl) (b : ℝ) (h : b ≠ 1 ∨ ¬ Fl.lt x 0) :
    npowR pw x b = .nan ∨ npowR pw x b = .pinf ∨ ∃ y, 0 ≤ y ∧ npowR pw x b = .fin y := by
  unfold npowR
  by_cases hb : b = 1
  · simp only [hb, if_true]
    have h' := h.resolve_left (fun hh => hh hb)
    cases x with
    | nan => exact Or.inl rfl
    | pinf => exact Or.inr (Or.inl rfl)
    | ninf => exact absurd trivial h'
    | fin a => exact Or.inr (Or.inr ⟨a, not_lt.mp h', rfl⟩)
  · simp only [hb, if_false]
    cases x with
    | nan => exact Or.inl rfl
    | pinf => exact Or.inr (Or.inl rfl)
    | ninf => exact Or.inr (Or.inl rfl)
    | fin a =>
      by_cases ha : a < 0
      · exact Or.inl (by simp [ha])
      · exact Or.inr (Or.inr ⟨pw a b, hw.nonneg _ _ (not_lt.mp ha), by simp [ha]⟩)

/-- the threshold from the power -/
noncomputable def ofPower (R : Rounding) (a : ℝ) (y : Fl) : Fl := rnd R (1 + rnd R (Fl.fin a / y))

theorem one_add' (x : ℝ) : (1 : Fl) + Fl.fin x = Fl.fin (1 + x) := rfl

theorem ofPower_nan (R : Rounding) (a : ℝ) : ofPower R a .nan = .nan := rfl
theorem ofPower_pinf (R : Rounding) (a : ℝ) : ofPower R a .pinf = .fin 1 := by
  unfold ofPower
  rw [show Fl.fin a / Fl.pinf = Fl.fin 0 from rfl]
  simp only [rnd, one_add', r_zero, add_zero, R.one]
theorem ofPower_fin (R : Rounding) (a : ℝ) {y : ℝ} (hy : 0 < y) : ofPower R a (.fin y) = .fin (R.r (1 + R.r (a / y))) := by
  unfold ofPower
  rw [Fl.fin_div _ _ hy.ne']
  simp only [rnd, one_add']
theorem ofPower_zero (R : Rounding) {a : ℝ} : (0 < a → ofPower R a (.fin 0) = .pinf) ∧ (a < 0 → ofPower R a (.fin 0) = .ninf) := by
  constructor <;> intro h
  · unfold ofPower
    rw [show Fl.fin a / Fl.fin 0 = Fl.pinf from by show Fl.div _ _ = _; unfold Fl.div; simp [h]]
    rfl
  · unfold ofPower
    rw [show Fl.fin a / Fl.fin 0 = Fl.ninf from by show Fl.div _ _ = _; unfold Fl.div; simp [h, not_lt.mpr h.le]]
    rfl

theorem one_le_r (R : Rounding) {x : ℝ} (h : 0 ≤ x) : 1 ≤ R.r (1 + R.r x) := by
  have := R.mono (show (1 : ℝ) ≤ 1 + R.r x by linarith [r_nonneg R h])
  rwa [R.one] at this

theorem one_ge_r (R : Rounding) {x : ℝ} (h : x ≤ 0) : R.r (1 + R.r x) ≤ 1 := by
  have h0 := R.mono h
  rw [r_zero] at h0
  have := R.mono (show 1 + R.r x ≤ (1 : ℝ) by linarith)
  rwa [R.one] at this

/-- the side of one -/
theorem ofPower_side (R : Rounding) {a y : ℝ} (hy : 0 ≤ y) :
    (0 < a → Fl.le 1 (ofPower R a (.fin y))) ∧ (a < 0 → Fl.le (ofPower R a (.fin y)) 1) := by
  rcases hy.lt_or_eq with hy | rfl
  · rw [ofPower_fin R a hy]
    exact ⟨fun h => one_le_r R (div_pos h hy).le, fun h => one_ge_r R (div_neg_of_neg_of_pos h hy).le⟩
  · exact ⟨fun h => by rw [(ofPower_zero R).1 h]; trivial, fun h => by rw [(ofPower_zero R).2 h]; trivial⟩

/-- a larger power brings the threshold closer to one -/
theorem ofPower_mono (R : Rounding) {a y z : ℝ} (hy : 0 ≤ y) (hyz : y ≤ z) :
    (0 < a → Fl.le (ofPower R a (.fin z)) (ofPower R a (.fin y))) ∧ (a < 0 → Fl.le (ofPower R a (.fin y)) (ofPower R a (.fin z))) := by
  rcases hy.lt_or_eq with h0 | rfl
  · rw [ofPower_fin R a h0, ofPower_fin R a (h0.trans_le hyz)]
    constructor <;> intro h
    · have := R.mono (div_le_div_of_nonneg_left h.le h0 hyz)
      exact R.mono (by linarith)
    · have e := div_le_div_of_nonneg_left (neg_pos.mpr h).le h0 hyz
      rw [neg_div, neg_div] at e
      have := R.mono (show a / y ≤ a / z by linarith)
      exact R.mono (by linarith)
  · constructor <;> intro h
    · rw [(ofPower_zero R).1 h]
      rcases hyz.lt_or_eq with h1 | rfl
      · rw [ofPower_fin R a h1]; trivial
      · rw [(ofPower_zero R).1 h]; trivial
    · rw [(ofPower_zero R).2 h]
      rcases hyz.lt_or_eq with h1 | rfl
      · rw [ofPower_fin R a h1]; trivial
      · rw [(ofPower_zero R).2 h]; trivial

section
variable {n : ℕ} (hn : 1 ≤ n) {pw : ℝ → ℝ → ℝ} (hw : PowerMono pw)
include hw

theorem base_ok (h3 : 3 ≤ n) {g : Int} {p : Kind → Abc} (h : params g = .ok p) (beta : Fl) (hb : ¬ Fl.lt beta 0) (k : Kind) :
    (readIn (fmt n hn) (p k)).b ≠ 1 ∨ ¬ Fl.lt (rnd (fmt n hn) (beta - Fl.fin (readIn (fmt n hn) (p k)).c)) 0 := by
  rcases (read_sign hn h3 h k).2.2.2 with e | e
  · exact Or.inl e
  · right
    generalize (readIn (fmt n hn) (p k)).c = c at e
    cases beta with
    | nan => exact id
    | pinf => exact id
    | ninf => exact absurd trivial hb
    | fin b =>
      have hb' : ¬ b < 0 := hb
      show ¬ ((fmt n hn).r (b + -c) < 0)
      have := r_nonneg (fmt n hn) (show 0 ≤ b + -c by linarith [not_lt.mp hb'])
      linarith

/-- C282: a computed threshold is missing, at least 1 (AIC, MM) or at most 1 (FMW, OFI) -/
theorem C282_side (h3 : 3 ≤ n) {g : Int} {p : Kind → Abc} (h : params g = .ok p) (beta : Fl) (hb : ¬ Fl.lt beta 0) (k : Kind) :
    thresholdR (fmt n hn) pw beta (p k) = .nan ∨ (High k ∧ Fl.le 1 (thresholdR (fmt n hn) pw beta (p k))) ∨
      (¬ High k ∧ Fl.le (thresholdR (fmt n hn) pw beta (p k)) 1) := by
  have s := read_sign hn h3 h k
  have hc := base_ok hn hw h3 h beta hb k
  have e0 : thresholdR (fmt n hn) pw beta (p k) = ofPower (fmt n hn) (readIn (fmt n hn) (p k)).a
    (npowR pw (rnd (fmt n hn) (beta - Fl.fin (readIn (fmt n hn) (p k)).c)) (readIn (fmt n hn) (p k)).b) := rfl
  rw [e0]
  rcases npowR_cases hw _ _ hc with e | e | ⟨y, hy, e⟩
  · left; rw [e]; rfl
  · right
    rw [e, ofPower_pinf]
    by_cases hk : High k
    · exact Or.inl ⟨hk, le_refl (1 : ℝ)⟩
    · exact Or.inr ⟨hk, le_refl (1 : ℝ)⟩
  · right
    rw [e]
    by_cases hk : High k
    · exact Or.inl ⟨hk, (ofPower_side _ hy).1 (s.2.1 hk)⟩
    · exact Or.inr ⟨hk, (ofPower_side _ hy).2 (s.2.2.1 hk)⟩

theorem exceedsR_side (h3 : 3 ≤ n) {g : Int} {p : Kind → Abc} (h : params g = .ok p) (beta ani : Fl) (hb : ¬ Fl.lt beta 0) (k : Kind)
    (he : ExceedsR (fmt n hn) pw p beta ani k) : (High k ∧ Fl.lt 1 ani) ∨ (¬ High k ∧ Fl.lt ani 1) := by
  unfold ExceedsR at he
  rcases C282_side hn hw h3 h beta hb k with e | ⟨hk, e⟩ | ⟨hk, e⟩
  · exfalso
    rw [e] at he
    cases k <;> cases ani <;> exact he
  · left
    refine ⟨hk, ?_⟩
    generalize thresholdR (fmt n hn) pw beta (p k) = t at *
    have hlt : Fl.lt t ani := by cases k <;> first | exact he | exact absurd hk id
    cases t <;> cases ani <;> first | trivial | exact absurd hlt id | exact absurd e id | exact lt_of_le_of_lt e hlt
  · right
    refine ⟨hk, ?_⟩
    generalize thresholdR (fmt n hn) pw beta (p k) = t at *
    have hlt : Fl.lt ani t := by cases k <;> first | exact he | exact absurd trivial hk
    cases t <;> cases ani <;> first | trivial | exact absurd hlt id | exact absurd e id | exact lt_of_lt_of_le hlt e

theorem initialR_iff {R : Rounding} {p : Kind → Abc} {beta ani : Fl} {k : Kind} :
    initialR R pw p beta ani k = some true ↔ ExceedsR R pw p beta ani k := by
  unfold initialR ExceedsR
  simp only []
  constructor
  · intro h
    split at h
    · cases h
    · exact of_decide_eq_true (Option.some.inj h)
  · intro h
    have : ¬ (thresholdR R pw beta (p k)).isNaN := by
      intro hc
      rw [Fl.isNaN_iff] at hc
      rw [hc] at h
      cases k <;> cases ani <;> exact h
    simp only [this, if_false]
    exact congrArg some (decide_eq_true h)

/-- C282: with rounding every row with non-negative (or missing) beta gets one bin and never an error: 4 beyond the computed mirror threshold, 3 beyond AIC only,
0 beyond oblique firehose, 1 beyond FMW only, otherwise 2; 3 and 4 need anisotropy above 1, 0 and 1 below 1 -/
theorem C282_bins (h3 : 3 ≤ n) {g : Int} {p : Kind → Abc} (h : params g = .ok p) (beta ani : Fl) (hb : ¬ Fl.lt beta 0) :
    ∃ b, stabilityR (fmt n hn) pw g beta ani = .ok b ∧
      (b = 4 ↔ ExceedsR (fmt n hn) pw p beta ani .MM) ∧
      (b = 3 ↔ (ExceedsR (fmt n hn) pw p beta ani .AIC ∧ ¬ ExceedsR (fmt n hn) pw p beta ani .MM)) ∧
      (b = 0 ↔ ExceedsR (fmt n hn) pw p beta ani .OFI) ∧
      (b = 1 ↔ (ExceedsR (fmt n hn) pw p beta ani .FMW ∧ ¬ ExceedsR (fmt n hn) pw p beta ani .OFI)) ∧
      (b = 2 ↔ ∀ k, ¬ ExceedsR (fmt n hn) pw p beta ani k) ∧
      (b = 0 ∨ b = 1 ∨ b = 2 ∨ b = 3 ∨ b = 4) ∧
      (3 ≤ b → Fl.lt 1 ani) ∧ (b ≤ 1 → Fl.lt ani 1) := by
  obtain ⟨E, hE⟩ : ∃ E : Kind → Prop, E = ExceedsR (fmt n hn) pw p beta ani := ⟨_, rfl⟩
  have hside : ∀ k, E k → _ := fun k hk => exceedsR_side hn hw h3 h beta ani hb k (by rw [← hE]; exact hk)
  rw [← hE]
  have hi : ∀ k, initialR (fmt n hn) pw p beta ani k = some true ↔ E k := fun k => by rw [hE]; exact initialR_iff hw
  have hexc : ∀ j k, High j → ¬ High k → ¬ (E j ∧ E k) := by
    rintro j k hj hk ⟨h1, h2⟩
    have e1 := (hside j h1).resolve_right (fun hh => hh.1 hj)
    have e2 := (hside k h2).resolve_left (fun hh => hk hh.1)
    exact not_both e1.2 e2.2
  have hfill := fillAll_eq (initialR (fmt n hn) pw p beta ani) (by
    rintro j k hj hk ⟨h1, h2⟩
    exact hexc j k hj hk ⟨(hi j).mp h1, (hi k).mp h2⟩)
  have hval : ∀ k, (initialR (fmt n hn) pw p beta ani k).getD false = decide (E k) := by
    intro k
    by_cases e : E k
    · rw [(hi k).mpr e]; simp [e]
    · have : initialR (fmt n hn) pw p beta ani k ≠ some true := fun hh => e ((hi k).mp hh)
      rcases q : initialR (fmt n hn) pw p beta ani k with _ | _ | _
      · simp [e]
      · simp [e]
      · exact absurd q this
  have hst : stabilityR (fmt n hn) pw g beta ani = bin (fun k => decide (E k)) := by
    unfold stabilityR
    simp only [h, bind, Except.bind, hfill, Option.isSome_some, List.all_eq_true, implies_true, if_true, Option.getD_some, hval]
  rw [hst]
  have hall : (∀ k, ¬ E k) ↔ (¬ E .AIC ∧ ¬ E .FMW ∧ ¬ E .MM ∧ ¬ E .OFI) :=
    ⟨fun hh => ⟨hh _, hh _, hh _, hh _⟩, fun ⟨a, b, c, d⟩ k => by cases k <;> assumption⟩
  rw [hall]
  have x1 := hexc .AIC .FMW trivial id
  have x2 := hexc .AIC .OFI trivial id
  have x3 := hexc .MM .FMW trivial id
  have x4 := hexc .MM .OFI trivial id
  have s1 := fun hh => ((hside .AIC hh).resolve_right (fun q => q.1 trivial)).2
  have s2 := fun hh => ((hside .MM hh).resolve_right (fun q => q.1 trivial)).2
  have s3 := fun hh => ((hside .FMW hh).resolve_left (fun q => q.1)).2
  have s4 := fun hh => ((hside .OFI hh).resolve_left (fun q => q.1)).2
  clear hE hi hval hfill hst hside hexc
  unfold bin
  simp only [kinds]
  by_cases a : E .AIC <;> by_cases f : E .FMW <;> by_cases m : E .MM <;> by_cases o : E .OFI <;> simp_all

theorem npowR_mono {x y : Fl} (hxy : Fl.le x y) {b : ℝ} (hb : 0 < b) (h : b ≠ 1 ∨ ¬ Fl.lt x 0) :
    npowR pw x b = .nan ∨ npowR pw y b = .pinf ∨ x = .ninf ∨ ∃ s t, 0 ≤ s ∧ s ≤ t ∧ npowR pw x b = .fin s ∧ npowR pw y b = .fin t := by
  unfold npowR
  by_cases hb1 : b = 1
  · simp only [hb1, if_true]
    have h' := h.resolve_left (fun hh => hh hb1)
    cases x <;> cases y <;> first | exact Or.inl rfl | exact Or.inr (Or.inl rfl) | exact Or.inr (Or.inr (Or.inl rfl)) | exact absurd hxy id | skip
    exact Or.inr (Or.inr (Or.inr ⟨_, _, not_lt.mp h', hxy, rfl, rfl⟩))
  · simp only [hb1, if_false]
    cases x <;> cases y <;> first | exact Or.inl rfl | exact Or.inr (Or.inl rfl) | exact Or.inr (Or.inr (Or.inl rfl)) | exact absurd hxy id | skip
    rename_i s t
    have hst : s ≤ t := hxy
    by_cases hs : s < 0
    · exact Or.inl (by simp [hs])
    · have hs' := not_lt.mp hs
      have ht : ¬ t < 0 := not_lt.mpr (hs'.trans hst)
      exact Or.inr (Or.inr (Or.inr ⟨pw s b, pw t b, hw.nonneg _ _ hs', hw.mono _ _ _ hb hs' hst, by simp [hs], by simp [ht]⟩))

/-- C282: above its pole a computed threshold never moves away from one as beta grows; a row beyond the threshold of an instability is beyond it at every
larger beta too, and at every anisotropy that is farther out -/
theorem C282_persists (h3 : 3 ≤ n) {g : Int} {p : Kind → Abc} (h : params g = .ok p) {beta beta' ani ani' : Fl} (hb : ¬ Fl.lt beta 0) (hbb : Fl.le beta beta')
    {k : Kind} (ha : ani' = ani ∨ (High k ∧ Fl.le ani ani') ∨ (¬ High k ∧ Fl.le ani' ani)) (he : ExceedsR (fmt n hn) pw p beta ani k) :
    ExceedsR (fmt n hn) pw p beta' ani' k := by
  have s := read_sign hn h3 h k
  have hc := base_ok hn hw h3 h beta hb k
  unfold ExceedsR at he ⊢
  have e0 : ∀ beta, thresholdR (fmt n hn) pw beta (p k) = ofPower (fmt n hn) (readIn (fmt n hn) (p k)).a
    (npowR pw (rnd (fmt n hn) (beta - Fl.fin (readIn (fmt n hn) (p k)).c)) (readIn (fmt n hn) (p k)).b) := fun _ => rfl
  rw [e0] at he ⊢
  generalize readIn (fmt n hn) (p k) = q at *
  have hm : Fl.le (rnd (fmt n hn) (beta - Fl.fin q.c)) (rnd (fmt n hn) (beta' - Fl.fin q.c)) := by
    cases beta <;> cases beta' <;> first | trivial | exact absurd hbb id | skip
    rename_i x y
    have hxy : x ≤ y := hbb
    exact (fmt n hn).mono (show x + -q.c ≤ y + -q.c by linarith)
  have hni : rnd (fmt n hn) (beta - Fl.fin q.c) ≠ .ninf := by
    cases beta with
    | nan => exact fun hh => by cases hh
    | pinf => exact fun hh => by cases hh
    | ninf => exact absurd trivial hb
    | fin x => exact fun hh => by cases hh
  generalize rnd (fmt n hn) (beta - Fl.fin q.c) = x at *
  generalize rnd (fmt n hn) (beta' - Fl.fin q.c) = y at *
  have key : ofPower (fmt n hn) q.a (npowR pw x q.b) = .nan ∨
      (High k ∧ Fl.le (ofPower (fmt n hn) q.a (npowR pw y q.b)) (ofPower (fmt n hn) q.a (npowR pw x q.b))) ∨
      (¬ High k ∧ Fl.le (ofPower (fmt n hn) q.a (npowR pw x q.b)) (ofPower (fmt n hn) q.a (npowR pw y q.b))) := by
    rcases npowR_mono hw hm s.1 hc with e | e | e | ⟨u, v, h0, huv, e, e'⟩
    · left; rw [e]; rfl
    · rcases npowR_cases hw x q.b hc with e2 | e2 | ⟨z, hz, e2⟩
      · left; rw [e2]; rfl
      · right
        rw [e, e2, ofPower_pinf]
        by_cases hk : High k
        · exact Or.inl ⟨hk, le_refl (1 : ℝ)⟩
        · exact Or.inr ⟨hk, le_refl (1 : ℝ)⟩
      · right
        rw [e, e2, ofPower_pinf]
        by_cases hk : High k
        · exact Or.inl ⟨hk, (ofPower_side _ hz).1 (s.2.1 hk)⟩
        · exact Or.inr ⟨hk, (ofPower_side _ hz).2 (s.2.2.1 hk)⟩
    · exact absurd e hni
    · right
      rw [e, e']
      by_cases hk : High k
      · exact Or.inl ⟨hk, (ofPower_mono _ h0 huv).1 (s.2.1 hk)⟩
      · exact Or.inr ⟨hk, (ofPower_mono _ h0 huv).2 (s.2.2.1 hk)⟩
  generalize ofPower (fmt n hn) q.a (npowR pw x q.b) = t at *
  generalize ofPower (fmt n hn) q.a (npowR pw y q.b) = t' at *
  rcases key with rfl | ⟨hk, e⟩ | ⟨hk, e⟩
  · exfalso
    cases k <;> cases ani <;> exact he
  · have hlt : Fl.lt t ani := by cases k <;> first | exact he | exact absurd hk id
    have hle : Fl.le ani ani' := by
      rcases ha with rfl | ha | ha
      · cases ani' <;> cases t <;> first | trivial | exact absurd hlt id | exact le_refl (_ : ℝ)
      · exact ha.2
      · exact absurd hk ha.1
    have : Fl.lt t' ani' := by
      cases t' <;> cases t <;> cases ani <;> cases ani' <;>
        first | trivial | exact absurd hlt id | exact absurd hle id | exact absurd e id | exact lt_of_le_of_lt e (lt_of_lt_of_le hlt hle)
    cases k <;> first | exact this | exact absurd hk id
  · have hlt : Fl.lt ani t := by cases k <;> first | exact he | exact absurd trivial hk
    have hle : Fl.le ani' ani := by
      rcases ha with rfl | ha | ha
      · cases ani' <;> cases t <;> first | trivial | exact absurd hlt id | exact le_refl (_ : ℝ)
      · exact absurd ha.1 hk
      · exact ha.2
    have : Fl.lt ani' t' := by
      cases t' <;> cases t <;> cases ani <;> cases ani' <;>
        first | trivial | exact absurd hlt id | exact absurd hle id | exact absurd e id | exact lt_of_lt_of_le (lt_of_le_of_lt hle hlt) e
    cases k <;> first | exact this | exact absurd trivial hk

/-- C282: at one anisotropy, the bin of a row at a larger beta is never closer to `Stable` and never on the other side of it -/
theorem C282_bin_beta (h3 : 3 ≤ n) {g : Int} {p : Kind → Abc} (h : params g = .ok p) {beta beta' ani : Fl} (hb : ¬ Fl.lt beta 0) (hbb : Fl.le beta beta') :
    ∃ b b', stabilityR (fmt n hn) pw g beta ani = .ok b ∧ stabilityR (fmt n hn) pw g beta' ani = .ok b' ∧
      (3 ≤ b → b ≤ b') ∧ (b ≤ 1 → b' ≤ b) := by
  have hb' : ¬ Fl.lt beta' 0 := by
    cases beta <;> cases beta' <;> first | exact id | exact absurd hbb id | exact absurd trivial hb | skip
    rename_i x y
    have h1 : ¬ x < 0 := hb
    have h2 : x ≤ y := hbb
    exact not_lt.mpr ((not_lt.mp h1).trans h2)
  obtain ⟨b, e, b4, b3, b0, b1, b2, br, _⟩ := C282_bins hn hw h3 h beta ani hb
  obtain ⟨c, e', c4, c3, c0, c1, c2, cr, _⟩ := C282_bins hn hw h3 h beta' ani hb'
  have P : ∀ k, ExceedsR (fmt n hn) pw p beta ani k → ExceedsR (fmt n hn) pw p beta' ani k :=
    fun k => C282_persists hn hw h3 h hb hbb (Or.inl rfl)
  refine ⟨b, c, e, e', ?_, ?_⟩
  · intro hh
    have : b = 3 ∨ b = 4 := by omega
    rcases this with q | q
    · have a := P _ (b3.mp q).1
      by_cases m : ExceedsR (fmt n hn) pw p beta' ani .MM
      · have := c4.mpr m; omega
      · have := c3.mpr ⟨a, m⟩; omega
    · have := c4.mpr (P _ (b4.mp q)); omega
  · intro hh
    have : b = 0 ∨ b = 1 := by omega
    rcases this with q | q
    · have := c0.mpr (P _ (b0.mp q)); omega
    · have a := P _ (b1.mp q).1
      by_cases m : ExceedsR (fmt n hn) pw p beta' ani .OFI
      · have := c0.mpr m; omega
      · have := c1.mpr ⟨a, m⟩; omega

end

/-! ### accuracy -/

/-- distance of the exact threshold from one, of the coefficients as read -/
noncomputable def excess (q : Abc) (beta : ℝ) : ℝ := |q.a| * (beta - q.c) ^ (-q.b)

theorem exact_threshold (q : Abc) {beta : ℝ} (hc : q.c < beta) : threshold (.fin beta) q = .fin (1 + q.a * (beta - q.c) ^ (-q.b)) := by
  have hz' : 0 < beta - q.c := by linarith
  unfold threshold npow
  rw [show Fl.fin beta - Fl.fin q.c = Fl.fin (beta - q.c) from congrArg Fl.fin (sub_eq_add_neg _ _).symm]
  rw [Real.rpow_neg hz'.le, ← div_eq_mul_inv]
  by_cases hb1 : q.b = 1
  · simp only [hb1, if_true, Real.rpow_one]
    rw [Fl.fin_div _ _ hz'.ne']; rfl
  · simp only [hb1, if_false]
    rw [Fl.rpow_fin _ _ hz', Fl.fin_div _ _ (Real.rpow_pos_of_pos hz' _).ne']; rfl

/-- C282: above the pole the computed threshold differs from the exact one of the coefficients as read by at most `b + j + 3` rounding errors of `1 + excess`,
`j` being the error of the power function -/
theorem C282_accuracy {n : ℕ} (hn : 1 ≤ n) {j : ℝ} (j0 : 0 ≤ j) {pw : ℝ → ℝ → ℝ} (hw : PowerOk n j pw) {q : Abc} (ha : q.a ≠ 0) (hb : 0 < q.b)
    {beta : ℝ} (hc : (readIn (fmt n hn) q).c < beta) {N : ℝ} (hN : N = (readIn (fmt n hn) q).b + j + 3) (hu : N * ulp n < 1) :
    ∃ T t, threshold (.fin beta) (readIn (fmt n hn) q) = .fin T ∧ thresholdR (fmt n hn) pw (.fin beta) q = .fin t ∧
      |t - T| ≤ N * ulp n / (1 - N * ulp n) * (1 + excess (readIn (fmt n hn) q) beta) := by
  obtain ⟨u0, u1⟩ := ulp_range hn
  have u1' : ulp n < 1 := by linarith
  have hb' : 0 < (readIn (fmt n hn) q).b := fmt_pos hn hb
  have ha' : (readIn (fmt n hn) q).a ≠ 0 := by
    rcases lt_or_gt_of_ne ha with h | h
    · exact (fmt_neg hn h).ne
    · exact (fmt_pos hn h).ne'
  rw [exact_threshold _ hc]
  unfold thresholdR excess
  simp only []
  generalize readIn (fmt n hn) q = q at *
  have hz : 0 < beta - q.c := by linarith
  have nz := near_one hn hz
  rw [show Fl.fin beta - Fl.fin q.c = Fl.fin (beta - q.c) from congrArg Fl.fin (sub_eq_add_neg _ _).symm]
  obtain ⟨y, hy, ny⟩ : ∃ y, npowR pw (rnd (fmt n hn) (Fl.fin (beta - q.c))) q.b = .fin y ∧ Near (ulp n) (q.b + j) ((beta - q.c) ^ q.b) y := by
    unfold npowR
    by_cases h1 : q.b = 1
    · refine ⟨(fmt n hn).r (beta - q.c), by simp [h1, rnd], ?_⟩
      rw [h1, Real.rpow_one]
      exact near_up u0.le u1' (by linarith) nz
    · refine ⟨pw ((fmt n hn).r (beta - q.c)) q.b, ?_, ?_⟩
      · have := near_pos u1' nz
        simp [h1, rnd, not_lt.mpr this.le]
      · have := near_power hn hw q.b nz
        rw [abs_of_pos hb', mul_one] at this
        exact this
  have y0 := near_pos u1' ny
  rw [hy]
  have e := ofPower_fin (fmt n hn) q.a y0
  unfold ofPower at e
  rw [e]
  refine ⟨_, _, rfl, rfl, ?_⟩
  obtain ⟨m, e1, n1⟩ := round_factor hn (q.a / y)
  rw [e1]
  obtain ⟨m', e2, n2⟩ := round_factor hn (1 + q.a / y * m)
  rw [e2]
  have N1 : 1 ≤ N := by linarith
  have A0 : 0 < |q.a| := abs_pos.mpr ha'
  have F := near_mul u0.le u1' (near_mul u0.le u1' (near_div u0.le u1' (near_refl u0.le u1' A0) ny) n1) n2
  have F' := near_rel u1'.le N1 hu (near_up u0.le u1' (b := N) (by linarith) F)
  have G := near_rel u1'.le N1 hu (near_up u0.le u1' (b := N) (by linarith) n2)
  rw [Real.rpow_neg hz.le]
  have : (1 + q.a / y * m) * m' - (1 + q.a * ((beta - q.c) ^ q.b)⁻¹) = (m' - 1) + (q.a / y * m * m' - q.a / (beta - q.c) ^ q.b) := by
    rw [div_eq_mul_inv q.a ((beta - q.c) ^ q.b)]; ring
  rw [this]
  refine (abs_add_le _ _).trans ?_
  have H : |q.a / y * m * m' - q.a / (beta - q.c) ^ q.b| = |(|q.a| / y * m * m') - |q.a| / (beta - q.c) ^ q.b * 1 * 1| := by
    rcases lt_or_gt_of_ne ha' with h | h
    · rw [abs_of_neg h, ← abs_neg]
      congr 1
      ring
    · rw [abs_of_pos h]
      congr 1
      ring
  rw [H]
  rw [← div_eq_mul_inv]
  simp only [mul_one] at F' G ⊢
  linarith

/-- C282: a row whose anisotropy is farther from the exact threshold than that is classified as the exact threshold says -/
theorem C282_same {n : ℕ} (hn : 1 ≤ n) {j : ℝ} (j0 : 0 ≤ j) {pw : ℝ → ℝ → ℝ} (hw : PowerOk n j pw) {q : Abc} (ha : q.a ≠ 0) (hb : 0 < q.b)
    {beta : ℝ} (hc : (readIn (fmt n hn) q).c < beta) {N : ℝ} (hN : N = (readIn (fmt n hn) q).b + j + 3) (hu : N * ulp n < 1) (k : Kind) {ani T : ℝ}
    (hT : threshold (.fin beta) (readIn (fmt n hn) q) = .fin T)
    (far : N * ulp n / (1 - N * ulp n) * (1 + excess (readIn (fmt n hn) q) beta) < |ani - T|) :
    test k (.fin ani) (thresholdR (fmt n hn) pw (.fin beta) q) ↔ test k (.fin ani) (threshold (.fin beta) (readIn (fmt n hn) q)) := by
  obtain ⟨T', t, e, e', d⟩ := C282_accuracy hn j0 hw ha hb hc hN hu
  rw [hT] at e
  obtain rfl : T = T' := by injection e
  rw [e', hT]
  have h := lt_of_le_of_lt d far
  have lo : t < ani ↔ T < ani := by
    constructor <;> intro hh <;> by_contra hcon <;> push Not at hcon
    · rw [abs_of_nonpos (by linarith : ani - T ≤ 0)] at h
      have := (abs_lt.mp h).1
      linarith
    · rw [abs_of_pos (by linarith : 0 < ani - T)] at h
      have := (abs_lt.mp h).2
      linarith
  have hi : ani < t ↔ ani < T := by
    constructor <;> intro hh <;> by_contra hcon <;> push Not at hcon
    · rw [abs_of_nonneg (by linarith : 0 ≤ ani - T)] at h
      have := (abs_lt.mp h).2
      linarith
    · rw [abs_of_neg (by linarith : ani - T < 0)] at h
      have := (abs_lt.mp h).1
      linarith
  cases k
  · exact lo
  · exact hi
  · exact lo
  · exact hi

/-- C282: without rounding the computed threshold is the one of C60, for every table and every beta -/
theorem C282_exact {g : Int} {p : Kind → Abc} (h : params g = .ok p) (k : Kind) (beta : Fl) :
    thresholdR exact (fun x b => x ^ b) beta (p k) = threshold beta (p k) := by
  obtain ⟨h1, _, _⟩ := params_sign h k
  have id' : ∀ y, rnd exact y = y := fun y => by cases y <;> rfl
  unfold thresholdR threshold
  simp only [id']
  have : readIn exact (p k) = p k := rfl
  rw [this]
  congr 2
  unfold npowR npow
  by_cases hb : (p k).b = 1
  · simp [hb]
  · simp only [hb, if_false]
    generalize beta - Fl.fin (p k).c = x
    cases x with
    | nan => rfl
    | pinf => simp [Fl.rpow, not_lt.mpr h1.le]
    | ninf => simp [Fl.rpow, not_lt.mpr h1.le]
    | fin a =>
      unfold Fl.rpow
      by_cases ha : a < 0
      · simp [ha]
      · by_cases ha0 : a = 0
        · subst ha0
          simp [not_lt.mpr h1.le, Real.zero_rpow h1.ne']
        · simp [ha, ha0]

/-- C282: without rounding the computed bin is the one of C60 -/
theorem C282_exact_bin (g : Int) (beta ani : Fl) : stabilityR exact (fun x b => x ^ b) g beta ani = stability 1 g beta ani := by
  unfold stabilityR stability
  cases hp : params g with
  | error e => rfl
  | ok p =>
    have e : initialR exact (fun x b => x ^ b) p beta ani = initial p beta ani := by
      funext k
      unfold initialR initial
      rw [C282_exact hp k beta]
    simp only [bind, Except.bind, e, iteritems, isUnstable]
    norm_num
    split <;> rfl

/-- non-vacuity: the correctly rounded power in double precision is one the theorems speak about -/
example : ∃ p, params (-2) = .ok p ∧ (∀ beta ani, ¬ Fl.lt beta 0 → ∃ b, stabilityR (fmt 53 (by norm_num)) (fun x b => (fmt 53 (by norm_num)).r (x ^ b)) (-2) beta ani = .ok b) :=
  ⟨_, rfl, fun beta ani hb => by
    obtain ⟨b, e, _⟩ := C282_bins (n := 53) (by norm_num) (powerMono_rounded _) (by norm_num) (g := -2) rfl beta ani hb
    exact ⟨b, e⟩⟩

/-- non-vacuity: so is the oblique firehose of growth rate -2 at beta = 2, with five rounding errors -/
example : ∃ T t, threshold (.fin 2) (readIn (fmt 53 (by norm_num)) ⟨-1.447, 1, -0.148⟩) = .fin T ∧
    thresholdR (fmt 53 (by norm_num)) (fun x b => (fmt 53 (by norm_num)).r (x ^ b)) (.fin 2) ⟨-1.447, 1, -0.148⟩ = .fin t ∧
    |t - T| ≤ 5 * ulp 53 / (1 - 5 * ulp 53) * (1 + excess (readIn (fmt 53 (by norm_num)) ⟨-1.447, 1, -0.148⟩) 2) := by
  have c0 : (fmt 53 (by norm_num)).r (-0.148) ≤ 0 := (fmt_neg (by norm_num) (by norm_num)).le
  have one : (fmt 53 (by norm_num)).r 1 = 1 := (fmt 53 (by norm_num)).one
  refine C282_accuracy (by norm_num) zero_le_one (power_rounded (by norm_num)) (by norm_num) (by norm_num) ?_ ?_ ?_
  · show (fmt 53 (by norm_num)).r (-0.148) < 2
    linarith
  · show 5 = (fmt 53 (by norm_num)).r 1 + 1 + 3
    rw [one]; norm_num
  · unfold ulp; norm_num

end Rnd
end SW
