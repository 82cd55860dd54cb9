import Verif.Rounded
import Mathlib.Tactic.Linarith
import Mathlib.Tactic.Positivity
import Mathlib.Tactic.NormNum
import Mathlib.Tactic.FieldSimp
import Mathlib.Tactic.Ring

/-!
# Facts on the binary formats used in C252 - C255
-/

namespace SW
namespace Rnd

/-! ## the nearest-even format is a rounding, and rounds to the nearest number -/

theorem rne_int (n : ℤ) : rne n = n := by
  unfold rne
  rw [Int.fract_intCast, if_pos (by norm_num), Int.floor_intCast]

theorem rne_bounds (x : ℝ) : ⌊x⌋ ≤ rne x ∧ rne x ≤ ⌊x⌋ + 1 := by
  unfold rne
  split_ifs <;> omega

theorem rne_mono : Monotone rne := by
  intro x y h
  rcases (Int.floor_le_floor h).lt_or_eq with hf | hf
  · have := (rne_bounds x).2
    have := (rne_bounds y).1
    omega
  · have hx := Int.floor_add_fract x
    have hy := Int.floor_add_fract y
    have hle : Int.fract x ≤ Int.fract y := by
      rw [hf] at hx
      linarith
    unfold rne
    rw [hf]
    split_ifs <;> first | omega | (exfalso; linarith)

theorem rne_dist (x : ℝ) : |(rne x : ℝ) - x| ≤ 1 / 2 := by
  have hx := Int.floor_add_fract x
  have h0 := Int.fract_nonneg x
  have h1 := Int.fract_lt_one x
  unfold rne
  rw [abs_le]
  split_ifs <;> push_cast <;> constructor <;> linarith

theorem rne_near {x : ℝ} {n : ℤ} (h : |x - n| < 1 / 2) : rne x = n := by
  have h1 := rne_dist x
  rw [abs_le] at h1
  rw [abs_lt] at h
  have a : ((rne x : ℤ) : ℝ) < ((n + 1 : ℤ) : ℝ) := by push_cast; linarith
  have b : ((n : ℤ) : ℝ) < ((rne x + 1 : ℤ) : ℝ) := by push_cast; linarith
  have a' := Int.cast_lt.mp a
  have b' := Int.cast_lt.mp b
  omega

/-- no integer is nearer -/
theorem rne_nearest (x : ℝ) (n : ℤ) : |(rne x : ℝ) - x| ≤ |(n : ℝ) - x| := by
  by_contra hc
  push Not at hc
  have h1 := rne_dist x
  have h2 : |x - n| < 1 / 2 := by rw [abs_sub_comm]; linarith
  rw [rne_near h2] at hc
  exact lt_irrefl _ hc

/-- a tie goes to the even neighbour -/
theorem rne_tie {x : ℝ} (h : |(rne x : ℝ) - x| = 1 / 2) : rne x % 2 = 0 := by
  have hx := Int.floor_add_fract x
  have h0 := Int.fract_nonneg x
  have h1 := Int.fract_lt_one x
  revert h
  unfold rne
  split_ifs with a b c
  · intro h
    exfalso
    rw [abs_eq (by norm_num)] at h
    rcases h with h | h <;> linarith
  · intro h
    exfalso
    push_cast at h
    rw [abs_eq (by norm_num)] at h
    rcases h with h | h <;> linarith
  · intro _
    exact c
  · intro _
    omega

theorem rne_neg (x : ℝ) : rne (-x) = - rne x := by
  have hn : ∀ y : ℝ, |y - (rne y : ℝ)| < 1 / 2 → rne (-y) = - rne y := by
    intro y hy
    apply rne_near
    rw [show -y - ((-rne y : ℤ) : ℝ) = -(y - (rne y : ℝ)) by push_cast; ring, abs_neg]
    exact hy
  rcases (rne_dist x).lt_or_eq with h | h
  · exact hn x (by rw [abs_sub_comm]; exact h)
  rcases (rne_dist (-x)).lt_or_eq with h' | h'
  · have := hn (-x) (by rw [abs_sub_comm]; exact h')
    rw [neg_neg] at this
    omega
  have e1 := rne_tie h
  have e2 := rne_tie h'
  rw [abs_eq (by norm_num)] at h h'
  rcases h with h | h <;> rcases h' with h' | h'
  · have : ((rne x + rne (-x) : ℤ) : ℝ) = ((1 : ℤ) : ℝ) := by push_cast; linarith
    have := Int.cast_injective this
    omega
  · have : ((rne x + rne (-x) : ℤ) : ℝ) = ((0 : ℤ) : ℝ) := by push_cast; linarith
    have := Int.cast_injective this
    omega
  · have : ((rne x + rne (-x) : ℤ) : ℝ) = ((0 : ℤ) : ℝ) := by push_cast; linarith
    have := Int.cast_injective this
    omega
  · have : ((rne x + rne (-x) : ℤ) : ℝ) = ((-1 : ℤ) : ℝ) := by push_cast; linarith
    have := Int.cast_injective this
    omega

theorem two_pos (e : ℤ) : (0 : ℝ) < 2 ^ e := by positivity

theorem binary_zero (p : ℕ) : binary p 0 = 0 := by unfold binary; rw [if_pos rfl]

theorem lastExp_neg (p : ℕ) (x : ℝ) : lastExp p (-x) = lastExp p x := by unfold lastExp; rw [abs_neg]

theorem binary_neg (p : ℕ) (x : ℝ) : binary p (-x) = - binary p x := by
  by_cases h : x = 0
  · rw [h, neg_zero, binary_zero, neg_zero]
  · unfold binary
    rw [if_neg h, if_neg (neg_ne_zero.mpr h), lastExp_neg, neg_div, rne_neg]
    push_cast
    ring

/-- `x` in units of its last place: p binary digits before the point -/
theorem scaled (p : ℕ) {x : ℝ} (h : 0 < x) : (2 : ℝ) ^ ((p : ℤ) - 1) ≤ x / 2 ^ lastExp p x ∧ x / 2 ^ lastExp p x < 2 ^ (p : ℤ) := by
  have a : ((2 : ℕ) : ℝ) ^ Int.log 2 x ≤ x := Int.zpow_log_le_self (by norm_num) h
  have b : x < ((2 : ℕ) : ℝ) ^ (Int.log 2 x + 1) := Int.lt_zpow_succ_log_self (by norm_num) x
  push_cast at a b
  unfold lastExp
  rw [abs_of_pos h]
  have hp := two_pos (Int.log 2 x - (p - 1))
  constructor
  · rw [le_div_iff₀ hp, ← zpow_add₀ (by norm_num)]
    have e : ((p : ℤ) - 1 + (Int.log 2 x - (p - 1))) = Int.log 2 x := by ring
    rw [e]
    exact a
  · rw [div_lt_iff₀ hp, ← zpow_add₀ (by norm_num)]
    have e : ((p : ℤ) + (Int.log 2 x - (p - 1))) = Int.log 2 x + 1 := by ring
    rw [e]
    exact b

/-- numbers with p binary digits -/
def Digits (p : ℕ) (x : ℝ) : Prop := ∃ (m e : ℤ), |m| < 2 ^ p ∧ x = m * 2 ^ e

theorem binary_rep {p : ℕ} {x : ℝ} (h : Digits p x) : binary p x = x := by
  have key : ∀ (m e : ℤ), 0 < m → m < 2 ^ p → binary p ((m : ℝ) * 2 ^ e) = m * 2 ^ e := by
    intro m e h0 hm
    have hx : (0 : ℝ) < m * 2 ^ e := mul_pos (by exact_mod_cast h0) (two_pos e)
    have hlt : (m : ℝ) * 2 ^ e < ((2 : ℕ) : ℝ) ^ ((p : ℤ) + e) := by
      push_cast
      rw [zpow_add₀ (by norm_num)]
      apply mul_lt_mul_of_pos_right _ (two_pos e)
      rw [zpow_natCast]
      exact_mod_cast hm
    have hlog := (Int.lt_zpow_iff_log_lt (by norm_num : 1 < 2) hx).mp hlt
    have hle : lastExp p ((m : ℝ) * 2 ^ e) ≤ e := by
      unfold lastExp
      rw [abs_of_pos hx]
      omega
    obtain ⟨k, hk⟩ := Int.eq_ofNat_of_zero_le (sub_nonneg.mpr hle)
    unfold binary
    rw [if_neg hx.ne']
    have e1 : (m : ℝ) * 2 ^ e / 2 ^ lastExp p ((m : ℝ) * 2 ^ e) = ((m * 2 ^ k : ℤ) : ℝ) := by
      rw [mul_div_assoc, ← zpow_sub₀ (by norm_num), hk, zpow_natCast]
      push_cast
      ring
    rw [e1, rne_int, ← e1, div_mul_cancel₀ _ (two_pos _).ne']
  obtain ⟨m, e, hm, rfl⟩ := h
  rcases lt_trichotomy m 0 with h0 | h0 | h0
  · have := key (-m) e (by omega) (by rw [abs_of_neg h0] at hm; exact hm)
    push_cast at this
    rw [neg_mul, binary_neg, neg_inj] at this
    exact this
  · subst h0
    rw [Int.cast_zero, zero_mul, binary_zero]
  · exact key m e h0 (by rw [abs_of_pos h0] at hm; exact hm)

theorem digits_pow {p : ℕ} (hp : 1 ≤ p) (e : ℤ) : Digits p (2 ^ e) := by
  refine ⟨1, e, ?_, by simp⟩
  rw [abs_one]
  exact one_lt_pow₀ (by norm_num) (by omega)

/-- what the rounding returns has p binary digits -/
theorem binary_digits {p : ℕ} (hp : 1 ≤ p) (x : ℝ) : Digits p (binary p x) := by
  have key : ∀ x : ℝ, 0 < x → Digits p (binary p x) := by
    intro x h
    obtain ⟨a, b⟩ := scaled p h
    have hb : rne (x / 2 ^ lastExp p x) ≤ 2 ^ p := by
      have := rne_mono (show x / 2 ^ lastExp p x ≤ ((2 ^ p : ℤ) : ℝ) by push_cast; rw [← zpow_natCast]; exact b.le)
      rw [rne_int] at this
      exact this
    have ha : 0 ≤ rne (x / 2 ^ lastExp p x) := by
      have := rne_mono (show ((0 : ℤ) : ℝ) ≤ x / 2 ^ lastExp p x by push_cast; exact (div_pos h (two_pos _)).le)
      rw [rne_int] at this
      exact this
    unfold binary
    rw [if_neg h.ne']
    rcases hb.lt_or_eq with hb | hb
    · exact ⟨_, _, by rw [abs_of_nonneg ha]; exact hb, rfl⟩
    · rw [hb]
      push_cast
      rw [← zpow_natCast, ← zpow_add₀ (by norm_num)]
      exact digits_pow hp _
  rcases lt_trichotomy x 0 with h | h | h
  · obtain ⟨m, e, hm, he⟩ := key (-x) (by linarith)
    rw [binary_neg] at he
    refine ⟨-m, e, by rw [abs_neg]; exact hm, ?_⟩
    push_cast
    linarith
  · subst h
    rw [binary_zero]
    exact ⟨0, 0, by simp, by simp⟩
  · exact key x h

/-- a rounded number stays in its binade -/
theorem binade {p : ℕ} (hp : 1 ≤ p) {x : ℝ} (h : 0 < x) : (2 : ℝ) ^ Int.log 2 x ≤ binary p x ∧ binary p x ≤ 2 ^ (Int.log 2 x + 1) := by
  obtain ⟨a, b⟩ := scaled p h
  have hq := two_pos (lastExp p x)
  obtain ⟨k, hk⟩ : ∃ k : ℕ, (p : ℤ) - 1 = k := ⟨p - 1, by omega⟩
  have hl : lastExp p x = Int.log 2 x - (p - 1) := by unfold lastExp; rw [abs_of_pos h]
  have ha := rne_mono (show ((2 ^ k : ℤ) : ℝ) ≤ x / 2 ^ lastExp p x by push_cast; rw [← zpow_natCast, ← hk]; exact a)
  have hb := rne_mono (show x / 2 ^ lastExp p x ≤ ((2 ^ p : ℤ) : ℝ) by push_cast; rw [← zpow_natCast]; exact b.le)
  rw [rne_int] at ha hb
  have ha' : ((2 ^ k : ℤ) : ℝ) ≤ (rne (x / 2 ^ lastExp p x) : ℝ) := Int.cast_le.mpr ha
  have hb' : (rne (x / 2 ^ lastExp p x) : ℝ) ≤ ((2 ^ p : ℤ) : ℝ) := Int.cast_le.mpr hb
  push_cast at ha' hb'
  unfold binary
  rw [if_neg h.ne']
  constructor
  · have e : Int.log 2 x = k + lastExp p x := by omega
    calc (2 : ℝ) ^ Int.log 2 x = 2 ^ k * 2 ^ lastExp p x := by rw [e, zpow_add₀ (by norm_num), zpow_natCast]
      _ ≤ _ := mul_le_mul_of_nonneg_right ha' hq.le
  · have e : Int.log 2 x + 1 = p + lastExp p x := by omega
    calc _ ≤ (2 : ℝ) ^ p * 2 ^ lastExp p x := mul_le_mul_of_nonneg_right hb' hq.le
      _ = 2 ^ (Int.log 2 x + 1) := by rw [e, zpow_add₀ (by norm_num), zpow_natCast]

theorem binary_mono {p : ℕ} (hp : 1 ≤ p) : Monotone (binary p) := by
  have pos : ∀ x y : ℝ, 0 < x → x ≤ y → binary p x ≤ binary p y := by
    intro x y hx h
    have hy : 0 < y := by linarith
    rcases (Int.log_mono_right (b := 2) hx h).lt_or_eq with hl | hl
    · refine (binade hp hx).2.trans (le_trans ?_ (binade hp hy).1)
      exact zpow_le_zpow_right₀ (by norm_num) (by omega)
    · have e : lastExp p x = lastExp p y := by unfold lastExp; rw [abs_of_pos hx, abs_of_pos hy, hl]
      unfold binary
      rw [if_neg hx.ne', if_neg hy.ne', e]
      apply mul_le_mul_of_nonneg_right _ (two_pos _).le
      exact Int.cast_le.mpr (rne_mono (div_le_div_of_nonneg_right h (two_pos _).le))
  have nn : ∀ x : ℝ, 0 < x → 0 ≤ binary p x := fun x hx => (two_pos _).le.trans (binade hp hx).1
  intro x y h
  rcases lt_trichotomy x 0 with hx | hx | hx
  · rcases lt_or_ge y 0 with hy | hy
    · have := pos (-y) (-x) (by linarith) (by linarith)
      rw [binary_neg, binary_neg] at this
      linarith
    · have h1 := nn (-x) (by linarith)
      rw [binary_neg] at h1
      rcases hy.lt_or_eq with hy | hy
      · have := nn y hy
        linarith
      · rw [← hy, binary_zero]
        linarith
  · subst hx
    rw [binary_zero]
    rcases h.lt_or_eq with hy | hy
    · exact nn y hy
    · rw [← hy, binary_zero]
  · exact pos x y hx h

/-- the format with p binary digits -/
noncomputable def fmt (p : ℕ) (hp : 1 ≤ p) : Rounding where
  r := binary p
  mono := binary_mono hp
  odd := binary_neg p
  idem := fun x => binary_rep (binary_digits hp x)
  one := binary_rep (by simpa using digits_pow hp 0)

/-- double precision -/
noncomputable def double : Rounding := fmt 53 (by norm_num)

/-- the result of rounding has p binary digits, no number with p binary digits is nearer, and such numbers are kept -/
theorem binary_nearest {p : ℕ} (hp : 1 ≤ p) (x : ℝ) :
    Digits p (binary p x) ∧ ∀ y, Digits p y → |binary p x - x| ≤ |y - x| := by
  refine ⟨binary_digits hp x, ?_⟩
  have key : ∀ x : ℝ, 0 < x → ∀ y, Digits p y → |binary p x - x| ≤ |y - x| := by
    intro x h y hy
    have hq := two_pos (lastExp p x)
    -- no multiple of the last place is nearer
    have mult : ∀ n : ℤ, |binary p x - x| ≤ |(n : ℝ) * 2 ^ lastExp p x - x| := by
      intro n
      have hx : x = x / 2 ^ lastExp p x * 2 ^ lastExp p x := (div_mul_cancel₀ _ hq.ne').symm
      have e : ∀ k : ℤ, |(k : ℝ) * 2 ^ lastExp p x - x| = |(k : ℝ) - x / 2 ^ lastExp p x| * 2 ^ lastExp p x := by
        intro k
        conv_lhs => rw [show (k : ℝ) * 2 ^ lastExp p x - x = ((k : ℝ) - x / 2 ^ lastExp p x) * 2 ^ lastExp p x by
          rw [sub_mul, div_mul_cancel₀ _ hq.ne']]
        rw [abs_mul, abs_of_pos hq]
      have e0 : binary p x = (rne (x / 2 ^ lastExp p x) : ℝ) * 2 ^ lastExp p x := by unfold binary; rw [if_neg h.ne']
      rw [e0, e, e]
      exact mul_le_mul_of_nonneg_right (rne_nearest _ n) hq.le
    obtain ⟨m, e, hm, rfl⟩ := hy
    by_cases he : lastExp p x ≤ e
    · obtain ⟨k, hk⟩ := Int.eq_ofNat_of_zero_le (sub_nonneg.mpr he)
      have : (m : ℝ) * 2 ^ e = ((m * 2 ^ k : ℤ) : ℝ) * 2 ^ lastExp p x := by
        have : e = k + lastExp p x := by omega
        rw [this, zpow_add₀ (by norm_num), zpow_natCast]
        push_cast
        ring
      rw [this]
      exact mult _
    · obtain ⟨k, hk⟩ : ∃ k : ℕ, (p : ℤ) - 1 = k := ⟨p - 1, by omega⟩
      have a := (scaled p h).1
      rw [le_div_iff₀ hq, hk, zpow_natCast] at a
      have h1 := mult (2 ^ k)
      push_cast at h1
      have hy : (m : ℝ) * 2 ^ e ≤ 2 ^ k * 2 ^ lastExp p x := by
        have hm' : (m : ℝ) ≤ 2 ^ p := by
          have := (abs_lt.mp hm).2.le
          exact_mod_cast this
        calc (m : ℝ) * 2 ^ e ≤ 2 ^ p * 2 ^ e := mul_le_mul_of_nonneg_right hm' (two_pos e).le
          _ = 2 ^ ((p : ℤ) + e) := by rw [zpow_add₀ (by norm_num), zpow_natCast]
          _ ≤ 2 ^ ((k : ℤ) + lastExp p x) := zpow_le_zpow_right₀ (by norm_num) (by omega)
          _ = _ := by rw [zpow_add₀ (by norm_num), zpow_natCast]
      rw [abs_sub_comm ((2 : ℝ) ^ k * 2 ^ lastExp p x) x, abs_of_nonneg (by linarith : (0 : ℝ) ≤ x - 2 ^ k * 2 ^ lastExp p x)] at h1
      rw [abs_sub_comm ((m : ℝ) * 2 ^ e) x, abs_of_nonneg (by linarith : (0 : ℝ) ≤ x - m * 2 ^ e)]
      linarith
  intro y hy
  rcases lt_trichotomy x 0 with h | h | h
  · have hy' : Digits p (-y) := by
      obtain ⟨m, e, hm, rfl⟩ := hy
      exact ⟨-m, e, by rw [abs_neg]; exact hm, by push_cast; ring⟩
    have := key (-x) (by linarith) (-y) hy'
    rw [binary_neg, show -binary p x - -x = -(binary p x - x) by ring, show -y - -x = -(y - x) by ring, abs_neg, abs_neg] at this
    exact this
  · subst h
    rw [binary_zero, sub_zero, abs_zero]
    exact abs_nonneg _
  · exact key x h y hy

theorem binary_eval' {p : ℕ} (q : ℝ) (m e : ℤ) (lo : (2 : ℝ) ^ ((p : ℤ) - 1 + e) ≤ q) (hi : q < 2 ^ ((p : ℤ) + e))
    (near : rne (q / 2 ^ e) = m) : binary p q = m * 2 ^ e := by
  have hq : 0 < q := (two_pos _).trans_le lo
  have h1 := (Int.zpow_le_iff_le_log (by norm_num : 1 < 2) hq (x := (p : ℤ) - 1 + e)).mp (by push_cast; exact lo)
  have h2 := (Int.lt_zpow_iff_log_lt (by norm_num : 1 < 2) hq (x := (p : ℤ) + e)).mp (by push_cast; exact hi)
  have he : lastExp p q = e := by
    unfold lastExp
    rw [abs_of_pos hq]
    omega
  unfold binary
  rw [if_neg hq.ne', he, near]

/-- the value of a rounding, by an integer and an exponent -/
theorem binary_eval {p : ℕ} (q : ℝ) (m e : ℤ) (lo : (2 : ℝ) ^ ((p : ℤ) - 1 + e) ≤ q) (hi : q < 2 ^ ((p : ℤ) + e))
    (near : |q / 2 ^ e - m| < 1 / 2) : binary p q = m * 2 ^ e := binary_eval' q m e lo hi (rne_near near)

/-- multiplication by a power of two is exact -/
theorem binary_scale (p : ℕ) (k : ℤ) (x : ℝ) : binary p (2 ^ k * x) = 2 ^ k * binary p x := by
  by_cases h : x = 0
  · rw [h, mul_zero, binary_zero, mul_zero]
  have hk := two_pos k
  have hl : lastExp p (2 ^ k * x) = k + lastExp p x := by
    unfold lastExp
    rw [abs_mul, abs_of_pos hk]
    have hx : 0 < |x| := abs_pos.mpr h
    have hkx : 0 < (2 : ℝ) ^ k * |x| := mul_pos hk hx
    have a : ((2 : ℕ) : ℝ) ^ Int.log 2 |x| ≤ |x| := Int.zpow_log_le_self (by norm_num) hx
    have b : |x| < ((2 : ℕ) : ℝ) ^ (Int.log 2 |x| + 1) := Int.lt_zpow_succ_log_self (by norm_num) _
    push_cast at a b
    have h1 := (Int.zpow_le_iff_le_log (by norm_num : 1 < 2) hkx (x := k + Int.log 2 |x|)).mp
      (by push_cast; rw [zpow_add₀ (by norm_num)]; exact mul_le_mul_of_nonneg_left a hk.le)
    have h2 := (Int.lt_zpow_iff_log_lt (by norm_num : 1 < 2) hkx (x := k + (Int.log 2 |x| + 1))).mp
      (by push_cast; rw [zpow_add₀ (by norm_num)]; exact mul_lt_mul_of_pos_left b hk)
    omega
  unfold binary
  rw [if_neg h, if_neg (mul_ne_zero hk.ne' h), hl, zpow_add₀ (by norm_num), mul_div_mul_left _ _ hk.ne']
  ring

/-- the rounding error is at most half a unit in the last place -/
theorem binary_ulp (p : ℕ) {x : ℝ} (h : 0 < x) : |binary p x - x| ≤ 2 ^ lastExp p x / 2 := by
  have hq := two_pos (lastExp p x)
  have e : binary p x - x = ((rne (x / 2 ^ lastExp p x) : ℝ) - x / 2 ^ lastExp p x) * 2 ^ lastExp p x := by
    rw [sub_mul, div_mul_cancel₀ _ hq.ne']
    unfold binary
    rw [if_neg h.ne']
  rw [e, abs_mul, abs_of_pos hq]
  have := mul_le_mul_of_nonneg_right (rne_dist (x / 2 ^ lastExp p x)) hq.le
  linarith

/-- a relative error of at most `2^-p` -/
theorem binary_rel (p : ℕ) (x : ℝ) : |binary p x - x| ≤ 2 ^ (-(p : ℤ)) * |x| := by
  have key : ∀ x : ℝ, 0 < x → |binary p x - x| ≤ 2 ^ (-(p : ℤ)) * |x| := by
    intro x h
    refine (binary_ulp p h).trans ?_
    have a : ((2 : ℕ) : ℝ) ^ Int.log 2 x ≤ x := Int.zpow_log_le_self (by norm_num) h
    push_cast at a
    have e : (2 : ℝ) ^ lastExp p x / 2 = 2 ^ (-(p : ℤ)) * 2 ^ Int.log 2 x := by
      unfold lastExp
      rw [abs_of_pos h, ← zpow_add₀ (by norm_num), div_eq_mul_inv, ← zpow_neg_one, ← zpow_add₀ (by norm_num)]
      congr 1
      ring
    rw [e, abs_of_pos h]
    exact mul_le_mul_of_nonneg_left a (two_pos _).le
  rcases lt_trichotomy x 0 with h | h | h
  · have := key (-x) (by linarith)
    rw [binary_neg, show -binary p x - -x = -(binary p x - x) by ring, abs_neg, abs_neg] at this
    exact this
  · subst h
    rw [binary_zero]
    simp
  · exact key x h

/-- the square root of a rounded square is the number again -/
theorem sqrt_sq {p : ℕ} (hp : 1 ≤ p) {x : ℝ} (hx : Digits p x) : binary p (Real.sqrt (binary p (x * x))) = |x| := by
  have key : ∀ x : ℝ, 0 < x → Digits p x → binary p (Real.sqrt (binary p (x * x))) = x := by
    intro x h hx
    obtain ⟨l, hl⟩ : ∃ l, l = lastExp p x := ⟨_, rfl⟩
    obtain ⟨m, hm⟩ : ∃ m, m = rne (x / 2 ^ l) := ⟨_, rfl⟩
    have hq := two_pos l
    have ex : x = m * 2 ^ l := by
      have := binary_rep hx
      unfold binary at this
      rw [if_neg h.ne', ← hl, ← hm] at this
      exact this.symm
    obtain ⟨k, hk⟩ : ∃ k : ℕ, (p : ℤ) - 1 = k := ⟨p - 1, by omega⟩
    obtain ⟨P, hP⟩ : ∃ P : ℝ, P = 2 ^ k := ⟨_, rfl⟩
    have hP1 : 1 ≤ P := by rw [hP]; exact one_le_pow₀ (by norm_num)
    have sc := scaled p h
    rw [← hl, hk, zpow_natCast, ← hP, ex, mul_div_assoc, div_self hq.ne', mul_one] at sc
    have h2P : (2 : ℝ) ^ (p : ℤ) = 2 * P := by
      rw [hP, show (p : ℤ) = k + 1 by omega, zpow_add₀ (by norm_num), zpow_natCast]
      ring
    rw [h2P] at sc
    obtain ⟨m1, m2⟩ := sc
    have m2' : (m : ℝ) ≤ 2 * P - 1 := by
      have : (m : ℝ) < ((2 ^ p : ℤ) : ℝ) := by
        push_cast
        rw [← zpow_natCast, h2P]
        exact m2
      have := Int.cast_lt.mp this
      have : m ≤ 2 ^ p - 1 := by omega
      have : (m : ℝ) ≤ ((2 ^ p - 1 : ℤ) : ℝ) := Int.cast_le.mpr this
      push_cast at this
      rw [← zpow_natCast, h2P] at this
      exact this
    have hxx : 0 < x * x := mul_pos h h
    have exx : x * x = (m : ℝ) * m * (2 ^ l * 2 ^ l) := by rw [ex]; ring
    have hll : (0 : ℝ) < 2 ^ l * 2 ^ l := mul_pos hq hq
    obtain ⟨y, hy⟩ : ∃ y, y = binary p (x * x) := ⟨_, rfl⟩
    obtain ⟨s, hs⟩ : ∃ s, s = Real.sqrt y / 2 ^ l := ⟨_, rfl⟩
    have y0 : 0 ≤ y := by
      rw [hy]
      have := binary_mono hp hxx.le
      rw [binary_zero] at this
      exact this
    have ss : s * s * (2 ^ l * 2 ^ l) = y := by
      rw [hs]
      have := Real.mul_self_sqrt y0
      field_simp
      nlinarith
    have s0 : 0 ≤ s := by rw [hs]; exact div_nonneg (Real.sqrt_nonneg _) hq.le
    -- from the error of the square to the error of the root
    have fin : ∀ (c : ℝ) (j : ℤ), lastExp p (x * x) = j + 2 * l → 0 < c → c * c ≤ m * m → Digits p (c * c * (2 ^ l * 2 ^ l)) ∨ c = 7 / 5 * P ∧ 2 * P * P ≤ m * m →
        P ≤ c → 2 ^ j < 2 * c → |s - m| < 1 / 2 ∧ P ≤ s := by
      intro c j hj hc hcm hd hPc hjc
      have hsc : c ≤ s := by
        have : c * c ≤ s * s := by
          rcases hd with hd | ⟨hd, hm2⟩
          · have h1 := binary_mono hp (show c * c * (2 ^ l * 2 ^ l) ≤ x * x by rw [exx]; exact mul_le_mul_of_nonneg_right hcm hll.le)
            rw [binary_rep hd, ← hy, ← ss] at h1
            exact le_of_mul_le_mul_right h1 hll
          · have d : Digits p (2 * P * P * (2 ^ l * 2 ^ l)) := by
              have : 2 * P * P * (2 ^ l * 2 ^ l) = (2 : ℝ) ^ (1 + k + k + l + l : ℤ) := by
                rw [hP]
                simp only [zpow_add₀ (two_ne_zero' ℝ), zpow_natCast, zpow_one]
                ring
              rw [this]
              exact digits_pow hp _
            have h1 := binary_mono hp (show 2 * P * P * (2 ^ l * 2 ^ l) ≤ x * x by rw [exx]; exact mul_le_mul_of_nonneg_right hm2 hll.le)
            rw [binary_rep d, ← hy, ← ss] at h1
            have := le_of_mul_le_mul_right h1 hll
            rw [hd]
            nlinarith
        exact abs_le_of_sq_le_sq' (by nlinarith) s0 |>.2
      have hmc : c ≤ m := abs_le_of_sq_le_sq' (by nlinarith) (by linarith) |>.2
      have er := binary_ulp p hxx
      rw [hj, ← hy, ← ss, exx, ← sub_mul, abs_mul, abs_of_pos hll, two_mul, zpow_add₀ (by norm_num), zpow_add₀ (by norm_num), mul_div_right_comm] at er
      have er' := le_of_mul_le_mul_right er hll
      refine ⟨?_, hPc.trans hsc⟩
      have fac : |s * s - m * m| = |s - m| * (s + m) := by
        rw [show s * s - (m : ℝ) * m = (s - m) * (s + m) by ring, abs_mul, abs_of_nonneg (by linarith : 0 ≤ s + m)]
      rw [fac] at er'
      by_contra hcon
      push Not at hcon
      have : 1 / 2 * (2 * c) ≤ |s - m| * (s + m) := mul_le_mul hcon (by linarith) (by linarith) (abs_nonneg _)
      linarith
    have res : |s - m| < 1 / 2 ∧ P ≤ s := by
      have hPp : (2 : ℝ) ^ (k : ℤ) = P := by rw [zpow_natCast, hP]
      have xlow : ((2 : ℕ) : ℝ) ^ ((k : ℤ) + k + 2 * l) ≤ x * x := by
        push_cast
        rw [exx, two_mul, zpow_add₀ (by norm_num), zpow_add₀ (by norm_num), zpow_add₀ (by norm_num), hPp]
        exact mul_le_mul_of_nonneg_right (by nlinarith) hll.le
      have xhigh : x * x < ((2 : ℕ) : ℝ) ^ ((k : ℤ) + k + 2 + 2 * l) := by
        push_cast
        rw [exx, two_mul l, zpow_add₀ (by norm_num), zpow_add₀ (by norm_num), zpow_add₀ (by norm_num), zpow_add₀ (by norm_num), hPp]
        apply mul_lt_mul_of_pos_right _ hll
        norm_num
        nlinarith
      have g1 := (Int.zpow_le_iff_le_log (by norm_num : 1 < 2) hxx).mp xlow
      have g2 := (Int.lt_zpow_iff_log_lt (by norm_num : 1 < 2) hxx).mp xhigh
      by_cases hm2 : (m : ℝ) * m < 2 * P * P
      · have xm : x * x < ((2 : ℕ) : ℝ) ^ ((k : ℤ) + k + 1 + 2 * l) := by
          push_cast
          rw [exx, two_mul l, zpow_add₀ (by norm_num), zpow_add₀ (by norm_num), zpow_add₀ (by norm_num), zpow_add₀ (by norm_num), hPp, zpow_one]
          apply mul_lt_mul_of_pos_right _ hll
          linarith
        have g3 := (Int.lt_zpow_iff_log_lt (by norm_num : 1 < 2) hxx).mp xm
        refine fin P k ?_ (by linarith) (by nlinarith) (Or.inl ?_) le_rfl (by rw [hPp]; linarith)
        · unfold lastExp
          rw [abs_of_pos hxx]
          omega
        · have : P * P * (2 ^ l * 2 ^ l) = (2 : ℝ) ^ (k + k + l + l : ℤ) := by
            rw [hP]
            simp only [zpow_add₀ (two_ne_zero' ℝ), zpow_natCast]
            ring
          rw [this]
          exact digits_pow hp _
      · push Not at hm2
        have xm : ((2 : ℕ) : ℝ) ^ ((k : ℤ) + k + 1 + 2 * l) ≤ x * x := by
          push_cast
          rw [exx, two_mul l, zpow_add₀ (by norm_num), zpow_add₀ (by norm_num), zpow_add₀ (by norm_num), zpow_add₀ (by norm_num), hPp, zpow_one]
          apply mul_le_mul_of_nonneg_right _ hll.le
          linarith
        have g3 := (Int.zpow_le_iff_le_log (by norm_num : 1 < 2) hxx).mp xm
        refine fin (7 / 5 * P) (k + 1) ?_ (by linarith) (by nlinarith) (Or.inr ⟨rfl, hm2⟩) (by linarith) ?_
        · unfold lastExp
          rw [abs_of_pos hxx]
          omega
        · rw [zpow_add₀ (by norm_num), hPp, zpow_one]
          linarith
    obtain ⟨near, hPs⟩ := res
    have er : Real.sqrt y = s * 2 ^ l := by rw [hs, div_mul_cancel₀ _ hq.ne']
    rw [← hy]
    conv_rhs => rw [ex]
    apply binary_eval
    · rw [zpow_add₀ (by norm_num), hk, zpow_natCast, ← hP, er]
      exact mul_le_mul_of_nonneg_right hPs hq.le
    · rw [zpow_add₀ (by norm_num), h2P, er]
      apply mul_lt_mul_of_pos_right _ hq
      have := (abs_lt.mp near).2
      linarith
    · rw [← hs]
      exact near
  rcases lt_trichotomy x 0 with h | h | h
  · rw [abs_of_neg h]
    have hd : Digits p (-x) := by
      obtain ⟨m, e, hm, rfl⟩ := hx
      exact ⟨-m, e, by rw [abs_neg]; exact hm, by push_cast; ring⟩
    have := key (-x) (by linarith) hd
    rw [neg_mul_neg] at this
    exact this
  · subst h
    rw [mul_zero, binary_zero, Real.sqrt_zero, binary_zero, abs_zero]
  · rw [abs_of_pos h]
    exact key x h hx

end Rnd
end SW
