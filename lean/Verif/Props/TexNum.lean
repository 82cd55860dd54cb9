import Verif.TexNum
import Verif.Props.Labels
import Mathlib.Tactic.NormNum
import Mathlib.Tactic.Linarith
import Mathlib.Tactic.Positivity
import Mathlib.Tactic.IntervalCases

/-! # Properties of the numbers in a fit's annotation: C174–C177 -/

namespace SW
namespace Tex

open Labels (replGo)

/-! ## Specification: the number a text denotes -/

/-- the text before the first `c` -/
def before (c : Char) (s : Str) : Str := s.takeWhile (· ≠ c)

/-- the text after the first `c` -/
def behind (c : Char) (s : Str) : Str := (s.dropWhile (· ≠ c)).drop 1

/-- digits as a number -/
def natOf (s : Str) : ℕ := Nat.ofDigitChars 10 s 0

/-- `[-]ddd[.ddd]` as a number -/
noncomputable def readDec : Str → ℝ
  | '-' :: s => -((natOf (before '.' s ++ behind '.' s) : ℝ) / 10 ^ (behind '.' s).length)
  | s => (natOf (before '.' s ++ behind '.' s) : ℝ) / 10 ^ (behind '.' s).length

/-- `±dd` as a number, nothing is zero -/
def readExp : Str → ℤ
  | '-' :: s => -(natOf s : ℤ)
  | '+' :: s => natOf s
  | s => natOf s

/-- `[-]ddd[.ddd][e±dd]` as a number -/
noncomputable def reads (s : Str) : ℝ := readDec (before 'e' s) * 10 ^ readExp (behind 'e' s)

/-- number of decimals printed -/
def decimals (s : Str) : ℕ := (behind '.' (before 'e' s)).length

/-! ### lemmas about texts -/

theorem before_behind (c : Char) (a b : Str) (h : c ∉ a) : before c (a ++ c :: b) = a ∧ behind c (a ++ c :: b) = b := by
  unfold before behind
  induction a with
  | nil => simp
  | cons x a ih =>
    simp only [List.mem_cons, not_or] at h
    have hx : x ≠ c := Ne.symm h.1
    simp only [List.cons_append]
    rw [List.takeWhile_cons_of_pos (by simpa using hx), List.dropWhile_cons_of_pos (by simpa using hx)]
    exact ⟨by rw [(ih h.2).1], (ih h.2).2⟩

theorem before_behind_none (c : Char) (a : Str) (h : c ∉ a) : before c a = a ∧ behind c a = [] := by
  unfold before behind
  induction a with
  | nil => simp
  | cons x a ih =>
    simp only [List.mem_cons, not_or] at h
    have hx : x ≠ c := Ne.symm h.1
    rw [List.takeWhile_cons_of_pos (by simpa using hx), List.dropWhile_cons_of_pos (by simpa using hx)]
    exact ⟨by rw [(ih h.2).1], (ih h.2).2⟩

theorem after_eq (c : Char) (s : Str) : after c s = behind c s := by
  unfold behind
  induction s with
  | nil => rfl
  | cons a s ih =>
    unfold after
    by_cases h : a = c
    · rw [if_pos h, List.dropWhile_cons_of_neg (by simpa using h)]; rfl
    · rw [if_neg h, ih, List.dropWhile_cons_of_pos (by simpa using h)]

theorem digitChar_val (n : ℕ) (h : n < 10) : (Nat.digitChar n).toNat - '0'.toNat = n := by
  interval_cases n <;> rfl

theorem digitChar_isDigit (n : ℕ) : (Nat.digitChar (n % 10)).isDigit = true := by
  rw [Nat.isDigit_digitChar]; exact decide_eq_true (Nat.mod_lt _ (by norm_num))

theorem digs_length (k n : ℕ) : (digs k n).length = k := by
  induction k generalizing n with
  | zero => rfl
  | succ k ih => simp [digs, ih]

theorem digs_digit (k n : ℕ) : ∀ c ∈ digs k n, c.isDigit = true := by
  induction k generalizing n with
  | zero => simp [digs]
  | succ k ih =>
    intro c hc
    simp only [digs, List.mem_append, List.mem_singleton] at hc
    rcases hc with hc | rfl
    · exact ih _ c hc
    · exact digitChar_isDigit n

theorem digs_val (k n acc : ℕ) : Nat.ofDigitChars 10 (digs k n) acc = acc * 10 ^ k + n % 10 ^ k := by
  induction k generalizing n acc with
  | zero => simp [digs, Nat.ofDigitChars, Nat.mod_one]
  | succ k ih =>
    rw [digs, Nat.ofDigitChars_append, ih, Nat.ofDigitChars_cons, digitChar_val _ (Nat.mod_lt _ (by norm_num))]
    show 10 * (acc * 10 ^ k + n / 10 % 10 ^ k) + n % 10 = _
    have h := Nat.mod_mul (x := n) (a := 10) (b := 10 ^ k)
    rw [pow_succ, Nat.mul_comm (10 ^ k) 10, h]
    ring

theorem toDigits_val (n : ℕ) : natOf (Nat.toDigits 10 n) = n := Nat.ofDigitChars_ten_toDigits

theorem toDigits_digit (n : ℕ) : ∀ c ∈ Nat.toDigits 10 n, c.isDigit = true :=
  fun _ h => Nat.isDigit_of_mem_toDigits (by decide) (by decide) h

/-- a character that is not a digit does not occur among digits -/
theorem not_mem_of_digit {s : Str} (h : ∀ c ∈ s, c.isDigit = true) {a : Char} (ha : a.isDigit = false) : a ∉ s := by
  intro hm; rw [h a hm] at ha; exact absurd ha (by decide)

/-- the exponent's digits -/
theorem expText_eq (e : ℤ) : ∃ t, expText e = (if e < 0 then '-' else '+') :: t ∧ t ≠ [] ∧ (∀ c ∈ t, c.isDigit = true) ∧ natOf t = e.natAbs := by
  unfold expText
  by_cases h : e.natAbs < 10
  · refine ⟨'0' :: Nat.toDigits 10 e.natAbs, by rw [if_pos h], by simp, ?_, ?_⟩
    · intro c hc
      rcases List.mem_cons.mp hc with rfl | hc
      · decide
      · exact toDigits_digit _ c hc
    · have := toDigits_val e.natAbs
      unfold natOf at this ⊢
      rw [Nat.ofDigitChars_cons]
      exact this
  · exact ⟨_, by rw [if_neg h], Nat.toDigits_ne_nil, toDigits_digit _, toDigits_val _⟩

theorem readExp_expText (e : ℤ) : readExp (expText e) = e := by
  obtain ⟨t, h, -, -, hv⟩ := expText_eq e
  rw [h]
  by_cases he : e < 0
  · rw [if_pos he]; simp only [readExp, hv]; omega
  · rw [if_neg he]; simp only [readExp, hv]; omega

theorem pyInt_expText (e : ℤ) : pyInt (expText e) = .ok e := by
  obtain ⟨t, h, hne, hd, hv⟩ := expText_eq e
  unfold natOf at hv
  rw [h]
  by_cases he : e < 0
  · rw [if_pos he]; simp only [pyInt, pyNat]; rw [if_pos ⟨hne, hd⟩, hv]; simp only [Except.map]; rw [show (-Int.ofNat e.natAbs) = e by simp only [Int.ofNat_eq_natCast]; omega]
  · rw [if_neg he]; simp only [pyInt, pyNat]; rw [if_pos ⟨hne, hd⟩, hv]; simp only [Except.map]; rw [show (Int.ofNat e.natAbs) = e by simp only [Int.ofNat_eq_natCast]; omega]

/-- the unsigned mantissa -/
def absMant (d : ℕ) (m : ℕ) : Str := Nat.digitChar (m / 10 ^ d % 10) :: (if d = 0 then [] else '.' :: digs d m)

theorem mantText_eq (d : ℕ) (s : Sci) : mantText d s = (if s.neg then ['-'] else []) ++ absMant d s.m := rfl

theorem absMant_chars (d m : ℕ) : ∀ c ∈ absMant d m, c.isDigit = true ∨ c = '.' := by
  intro c hc
  unfold absMant at hc
  rcases List.mem_cons.mp hc with rfl | hc
  · exact Or.inl (digitChar_isDigit _)
  · by_cases hd : d = 0
    · rw [if_pos hd] at hc; simp at hc
    · rw [if_neg hd] at hc
      rcases List.mem_cons.mp hc with rfl | hc
      · exact Or.inr rfl
      · exact Or.inl (digs_digit _ _ c hc)

theorem mant_chars (d : ℕ) (s : Sci) : ∀ c ∈ mantText d s, c.isDigit = true ∨ c = '.' ∨ c = '-' := by
  intro c hc
  rw [mantText_eq] at hc
  rcases List.mem_append.mp hc with hc | hc
  · by_cases h : s.neg = true
    · rw [if_pos h] at hc; simp at hc; exact Or.inr (Or.inr hc)
    · rw [if_neg h] at hc; simp at hc
  · rcases absMant_chars _ _ c hc with h | h
    · exact Or.inl h
    · exact Or.inr (Or.inl h)

theorem e_not_mem_mant (d : ℕ) (s : Sci) : 'e' ∉ mantText d s := by
  intro h
  rcases mant_chars d s _ h with h | h | h
  · exact absurd h (by decide)
  · exact absurd h (by decide)
  · exact absurd h (by decide)

theorem absMant_head (d m : ℕ) : ∃ n t, absMant d m = Nat.digitChar (n % 10) :: t := ⟨_, _, rfl⟩

theorem digitChar_ne_minus (n : ℕ) : Nat.digitChar (n % 10) ≠ '-' := by
  intro h; have := digitChar_isDigit n; rw [h] at this; exact absurd this (by decide)

/-- the unsigned mantissa denotes `m / 10^d` -/
theorem absMant_parts (d m : ℕ) (hm : m < 10 ^ (d + 1)) :
    natOf (before '.' (absMant d m) ++ behind '.' (absMant d m)) = m ∧ (behind '.' (absMant d m)).length = d := by
  have hlt : m / 10 ^ d < 10 := by
    rw [Nat.div_lt_iff_lt_mul (by positivity)]; rw [pow_succ] at hm; omega
  have hnd : ('.' : Char) ∉ [Nat.digitChar (m / 10 ^ d % 10)] := by
    apply not_mem_of_digit _ (by decide)
    intro c hc; simp at hc; subst hc
    have := digitChar_isDigit (m / 10 ^ d); simpa using this
  unfold absMant
  by_cases hd : d = 0
  · subst hd
    rw [if_pos rfl]
    obtain ⟨h1, h2⟩ := before_behind_none '.' _ hnd
    rw [h1, h2]
    refine ⟨?_, rfl⟩
    unfold natOf
    simp only [List.append_nil, Nat.ofDigitChars_cons, digitChar_val _ (Nat.mod_lt _ (by norm_num : (10:ℕ) > 0))]
    simp only [pow_zero, Nat.div_one] at hlt ⊢
    simp [Nat.ofDigitChars, Nat.mod_eq_of_lt hlt]
  · rw [if_neg hd]
    obtain ⟨h1, h2⟩ := before_behind '.' [Nat.digitChar (m / 10 ^ d % 10)] (digs d m) hnd
    rw [List.singleton_append] at h1 h2
    rw [h1, h2]
    refine ⟨?_, digs_length _ _⟩
    unfold natOf
    rw [List.singleton_append, Nat.ofDigitChars_cons, digs_val, digitChar_val _ (Nat.mod_lt _ (by norm_num)),
      Nat.mod_eq_of_lt hlt]
    have := Nat.div_add_mod m (10 ^ d)
    rw [Nat.mul_comm] at this
    rw [Nat.mul_zero, Nat.zero_add]
    exact this

/-- a printed number denotes its decimal, with the requested number of decimals -/
theorem sciText_reads (d : ℕ) (s : Sci) (hm : s.m < 10 ^ (d + 1)) :
    reads (sciText d s) = (if s.neg then -1 else 1) * ((s.m : ℝ) * 10 ^ (s.e - d)) ∧ decimals (sciText d s) = d := by
  obtain ⟨h1, h2⟩ := before_behind 'e' (mantText d s) (expText s.e) (e_not_mem_mant d s)
  obtain ⟨p1, p2⟩ := absMant_parts d s.m hm
  unfold reads decimals sciText
  rw [h1, h2, readExp_expText, mantText_eq]
  have hz : (10 : ℝ) ^ (s.e - (d : ℤ)) = (10 : ℝ) ^ s.e / 10 ^ d := by rw [zpow_sub₀ (by norm_num), zpow_natCast]
  rw [hz]
  by_cases h : s.neg = true
  · rw [if_pos h, if_pos h, List.singleton_append]
    refine ⟨?_, ?_⟩
    · simp only [readDec]; rw [p1, p2]; ring
    · have : behind '.' ('-' :: absMant d s.m) = behind '.' (absMant d s.m) := by
        unfold behind; rw [List.dropWhile_cons_of_pos (by decide)]
      rw [this, p2]
  · rw [if_neg h, if_neg h, List.nil_append]
    refine ⟨?_, p2⟩
    obtain ⟨n, t, ht⟩ := absMant_head d s.m
    have : readDec (absMant d s.m) = (natOf (before '.' (absMant d s.m) ++ behind '.' (absMant d s.m)) : ℝ) / 10 ^ (behind '.' (absMant d s.m)).length := by
      rw [ht]
      have hne := digitChar_ne_minus n
      generalize Nat.digitChar (n % 10) = c at hne
      unfold readDec
      split
      · next heq => simp at heq; exact absurd heq.1 hne
      · rfl
    rw [this, p1, p2]; ring

/-! ### rounding -/

theorem roundHE_spec (x : ℝ) (hx : 0 ≤ x) : |(roundHE x : ℝ) - x| ≤ 1 / 2 := by
  have h1 := Nat.floor_le hx
  have h2 := Nat.lt_floor_add_one x
  unfold roundHE
  rw [abs_le]
  split_ifs <;> push_cast <;> constructor <;> linarith

theorem roundHE_mono_nat (x : ℝ) (hx : 0 ≤ x) (n : ℕ) : ((n : ℝ) ≤ x → n ≤ roundHE x) ∧ (x ≤ n → roundHE x ≤ n) := by
  have h := abs_le.mp (roundHE_spec x hx)
  constructor
  · intro hn
    by_contra hc
    have : roundHE x + 1 ≤ n := by omega
    have : (roundHE x : ℝ) + 1 ≤ n := by exact_mod_cast this
    linarith [h.1]
  · intro hn
    by_contra hc
    have : n + 1 ≤ roundHE x := by omega
    have : (n : ℝ) + 1 ≤ roundHE x := by exact_mod_cast this
    linarith [h.2]

/-- the decade of a number -/
theorem log_bounds (x : ℝ) (hx : x ≠ 0) : (10 : ℝ) ^ Int.log 10 |x| ≤ |x| ∧ |x| < 10 ^ (Int.log 10 |x| + 1) := by
  have h1 := Int.zpow_log_le_self (b := 10) (r := |x|) (by norm_num) (abs_pos.mpr hx)
  have h2 := Int.lt_zpow_succ_log_self (b := 10) (by norm_num) (|x|)
  exact ⟨by exact_mod_cast h1, by exact_mod_cast h2⟩

theorem scaled_bounds (d : ℕ) (x : ℝ) (hx : x ≠ 0) :
    (10 : ℝ) ^ d ≤ |x| * 10 ^ ((d : ℤ) - Int.log 10 |x|) ∧ |x| * 10 ^ ((d : ℤ) - Int.log 10 |x|) < 10 ^ (d + 1) := by
  obtain ⟨h1, h2⟩ := log_bounds x hx
  have hp : (0 : ℝ) < 10 ^ ((d : ℤ) - Int.log 10 |x|) := by positivity
  have e1 : (10 : ℝ) ^ Int.log 10 |x| * 10 ^ ((d : ℤ) - Int.log 10 |x|) = 10 ^ d := by
    rw [← zpow_add₀ (by norm_num), ← zpow_natCast]; congr 1; ring
  have e2 : (10 : ℝ) ^ (Int.log 10 |x| + 1) * 10 ^ ((d : ℤ) - Int.log 10 |x|) = 10 ^ (d + 1) := by
    rw [← zpow_add₀ (by norm_num), ← zpow_natCast]; congr 1; push_cast; ring
  exact ⟨by rw [← e1]; exact mul_le_mul_of_nonneg_right h1 hp.le, by rw [← e2]; exact mul_lt_mul_of_pos_right h2 hp⟩

/-- the digits of a non-zero number -/
theorem sci_digits (d : ℕ) (x : ℝ) (hx : x ≠ 0) : 10 ^ d ≤ (sci d x).m ∧ (sci d x).m < 10 ^ (d + 1) := by
  obtain ⟨h1, h2⟩ := scaled_bounds d x hx
  have h0 : (0 : ℝ) ≤ |x| * 10 ^ ((d : ℤ) - Int.log 10 |x|) := by positivity
  have a := (roundHE_mono_nat _ h0 (10 ^ d)).1 (by exact_mod_cast h1)
  have b := (roundHE_mono_nat _ h0 (10 ^ (d + 1))).2 (by exact_mod_cast h2.le)
  unfold sci
  rw [if_neg hx]
  split_ifs with h
  · exact ⟨le_refl _, Nat.pow_lt_pow_right (by norm_num) (by omega)⟩
  · exact ⟨a, lt_of_le_of_ne b h⟩

theorem sci_lt (d : ℕ) (x : ℝ) : (sci d x).m < 10 ^ (d + 1) := by
  by_cases hx : x = 0
  · unfold sci; rw [if_pos hx]; positivity
  · exact (sci_digits d x hx).2

/-- the printed decimal is the rounding at `d` decimals -/
theorem sci_value (d : ℕ) (x : ℝ) (hx : x ≠ 0) :
    ((sci d x).m : ℝ) * 10 ^ ((sci d x).e - d) =
      (roundHE (|x| * 10 ^ ((d : ℤ) - Int.log 10 |x|)) : ℝ) * 10 ^ (Int.log 10 |x| - d) ∧
    ((sci d x).neg = true ↔ x < 0) := by
  unfold sci
  rw [if_neg hx]
  split_ifs with h
  · refine ⟨?_, by simp⟩
    rw [h]; push_cast
    rw [← zpow_natCast, ← zpow_natCast, ← zpow_add₀ (by norm_num), ← zpow_add₀ (by norm_num)]
    congr 1; push_cast; ring
  · exact ⟨rfl, by simp⟩

/-- the number denoted by the text of `x` -/
theorem fmt_reads (d : ℕ) (x : ℝ) (hx : x ≠ 0) :
    ∃ z : ℤ, reads (fmtE d (.fin x)) = z * 10 ^ (Int.log 10 |x| - d) ∧ |reads (fmtE d (.fin x)) - x| ≤ 1 / 2 * 10 ^ (Int.log 10 |x| - d) := by
  obtain ⟨hv, hn⟩ := sci_value d x hx
  have hr := (sciText_reads d (sci d x) (sci_lt d x)).1
  have h0 : (0 : ℝ) ≤ |x| * 10 ^ ((d : ℤ) - Int.log 10 |x|) := by positivity
  have hs := roundHE_spec _ h0
  rw [hv] at hr
  have hp : (0 : ℝ) < 10 ^ (Int.log 10 |x| - d) := by positivity
  have hone : (10 : ℝ) ^ ((d : ℤ) - Int.log 10 |x|) * 10 ^ (Int.log 10 |x| - d) = 1 := by
    rw [← zpow_add₀ (by norm_num)]; ring_nf; norm_num
  generalize roundHE (|x| * 10 ^ ((d : ℤ) - Int.log 10 |x|)) = R at *
  have hd : |(R : ℝ) * 10 ^ (Int.log 10 |x| - d) - (|x|)| ≤ 1 / 2 * 10 ^ (Int.log 10 |x| - d) := by
    have : (R : ℝ) * 10 ^ (Int.log 10 |x| - d) - |x| = (R - |x| * 10 ^ ((d : ℤ) - Int.log 10 |x|)) * 10 ^ (Int.log 10 |x| - d) := by
      rw [sub_mul, mul_assoc, hone, mul_one]
    rw [this, abs_mul, abs_of_pos hp]
    exact mul_le_mul_of_nonneg_right hs hp.le
  change ∃ z : ℤ, reads (sciText d (sci d x)) = _ ∧ |reads (sciText d (sci d x)) - x| ≤ _
  rw [hr]
  by_cases hneg : x < 0
  · rw [if_pos (hn.mpr hneg)]
    refine ⟨-(R : ℤ), by push_cast; ring, ?_⟩
    rw [abs_of_neg hneg] at hd ⊢
    rw [show (-1 : ℝ) * ((R : ℝ) * 10 ^ (Int.log 10 (-x) - ↑d)) - x = -((R : ℝ) * 10 ^ (Int.log 10 (-x) - ↑d) - -x) by ring, abs_neg]
    exact hd
  · rw [if_neg (fun h => hneg (hn.mp h))]
    refine ⟨(R : ℤ), by push_cast; ring, ?_⟩
    rw [abs_of_nonneg (not_lt.mp hneg)] at hd ⊢
    rw [one_mul]; exact hd

/-! ### precision -/

theorem calc_fin (x : ℝ) : calcPrecision (.fin x) = .ok (sci 6 x).e := by
  unfold calcPrecision
  rw [after_eq]
  show pyInt (behind 'e' (mantText 6 (sci 6 x) ++ 'e' :: expText (sci 6 x).e)) = _
  rw [(before_behind 'e' _ _ (e_not_mem_mant _ _)).2, pyInt_expText]

theorem calc_nonfin (x : Fl) (h : ¬ x.isFinite) : calcPrecision x = .error .valueError := by
  cases x with
  | nan => decide
  | pinf => decide
  | ninf => decide
  | fin r => exact absurd trivial h

/-- "to seven significant digits, the first digit of `x` is at `10^k`" -/
def Decade (x : ℝ) (k : ℤ) : Prop := 9.9999995 * (10 : ℝ) ^ (k - 1) ≤ |x| ∧ |x| < 9.9999995 * 10 ^ k

theorem Decade.ne_zero {x : ℝ} {k : ℤ} (h : Decade x k) : x ≠ 0 := by
  intro hx
  have := h.1
  rw [hx, abs_zero] at this
  have : (0 : ℝ) < 9.9999995 * 10 ^ (k - 1) := by positivity
  linarith

/-- `roundHE` reaches ten million from half below on -/
theorem roundHE_top (y : ℝ) (h2 : y < 10 ^ 7) (h1 : (10:ℝ)^6 ≤ y) : roundHE y = 10 ^ 7 ↔ 9999999.5 ≤ y := by
  have h0 : (0:ℝ) ≤ y := le_trans (by norm_num) h1
  have hs := abs_le.mp (roundHE_spec y h0)
  constructor
  · intro h
    rw [h] at hs; push_cast at hs; linarith [hs.1, hs.2]
  · intro h
    have hf : ⌊y⌋₊ = 9999999 := by
      rw [Nat.floor_eq_iff h0]; push_cast; constructor <;> linarith
    unfold roundHE
    rw [hf]
    push_cast
    by_cases h3 : 1/2 < y - 9999999
    · rw [if_neg (by linarith), if_pos h3]
    · rw [if_neg (by linarith), if_neg h3]

theorem sci_e (x : ℝ) (k : ℤ) (h : Decade x k) : (sci 6 x).e = k ∧ Int.log 10 |x| ≤ k ∧ k ≤ Int.log 10 |x| + 1 ∧
    ((10 : ℝ) ^ k ≤ |x| → Int.log 10 |x| = k) := by
  have hx := h.ne_zero
  obtain ⟨l1, l2⟩ := log_bounds x hx
  obtain ⟨s1, s2⟩ := scaled_bounds 6 x hx
  have hk1 : Int.log 10 |x| ≤ k := by
    have : (10 : ℝ) ^ Int.log 10 |x| < 10 ^ (k + 1) := by
      refine lt_of_le_of_lt l1 (lt_of_lt_of_le h.2 ?_)
      rw [zpow_add₀ (by norm_num), mul_comm]
      exact mul_le_mul_of_nonneg_left (by norm_num) (by positivity)
    have := (zpow_lt_zpow_iff_right₀ (by norm_num : (1 : ℝ) < 10)).mp this
    omega
  have hk2 : k ≤ Int.log 10 |x| + 1 := by
    have : (10 : ℝ) ^ (k - 1) < 10 ^ (Int.log 10 |x| + 1) := by
      refine lt_of_le_of_lt ?_ (lt_of_le_of_lt h.1 l2)
      have : (0 : ℝ) < 10 ^ (k - 1) := by positivity
      linarith
    have := (zpow_lt_zpow_iff_right₀ (by norm_num : (1 : ℝ) < 10)).mp this
    omega
  refine ⟨?_, hk1, hk2, ?_⟩
  · have hscale : 9999999.5 ≤ |x| * 10 ^ ((6 : ℤ) - Int.log 10 |x|) ↔ 9.9999995 * (10 : ℝ) ^ Int.log 10 |x| ≤ |x| := by
      have hp : (0 : ℝ) < 10 ^ ((6 : ℤ) - Int.log 10 |x|) := by positivity
      have e : (9999999.5 : ℝ) = 9.9999995 * 10 ^ Int.log 10 |x| * 10 ^ ((6 : ℤ) - Int.log 10 |x|) := by
        rw [mul_assoc, ← zpow_add₀ (by norm_num)]
        ring_nf; norm_num
      rw [e, mul_le_mul_iff_left₀ hp]
    have key := roundHE_top _ (by exact_mod_cast s2) (by exact_mod_cast s1)
    unfold sci
    rw [if_neg hx]
    by_cases hc : k = Int.log 10 |x|
    · rw [if_neg]
      · exact hc.symm
      · intro h7
        have := hscale.mp (key.mp (by exact_mod_cast h7))
        have := h.2
        rw [hc] at this
        linarith
    · have hk : k = Int.log 10 |x| + 1 := by omega
      rw [if_pos]
      · exact hk.symm
      · have := h.1
        rw [hk, add_sub_cancel_right] at this
        have := key.mpr (hscale.mpr this)
        exact_mod_cast this
  · intro hle
    have : (10 : ℝ) ^ k < 10 ^ (Int.log 10 |x| + 1) := lt_of_le_of_lt hle l2
    have := (zpow_lt_zpow_iff_right₀ (by norm_num : (1 : ℝ) < 10)).mp this
    omega

/-- every non-zero number has exactly one decade -/
theorem decade_exists (x : ℝ) (hx : x ≠ 0) : ∃! k, Decade x k := by
  have huniq : ∀ k k', Decade x k → Decade x k' → k = k' := fun k k' h h' => (sci_e x k h).1.symm.trans (sci_e x k' h').1
  obtain ⟨l1, l2⟩ := log_bounds x hx
  by_cases h : 9.9999995 * (10 : ℝ) ^ Int.log 10 |x| ≤ |x|
  · refine ⟨Int.log 10 |x| + 1, ⟨by rw [add_sub_cancel_right]; exact h, lt_of_lt_of_le l2 ?_⟩, fun k' h' => huniq _ _ h' ⟨by rw [add_sub_cancel_right]; exact h, lt_of_lt_of_le l2 ?_⟩⟩ <;>
    · have : (0 : ℝ) < 10 ^ (Int.log 10 |x| + 1) := by positivity
      linarith
  · have h1 : 9.9999995 * (10 : ℝ) ^ (Int.log 10 |x| - 1) ≤ |x| := by
      refine le_trans ?_ l1
      rw [zpow_sub_one₀ (by norm_num)]
      have : (0 : ℝ) < 10 ^ Int.log 10 |x| := by positivity
      linarith
    exact ⟨Int.log 10 |x|, ⟨h1, not_le.mp h⟩, fun k' h' => huniq _ _ h' ⟨h1, not_le.mp h⟩⟩

/-! ### C174: value and uncertainty -/

/-- the two printed numbers -/
def Shown (v u : Fl) (tv tu : Str) : Prop := valUncert v u = .ok (tv ++ " \\pm ".toList ++ tu)

theorem pm_eq : pm = " \\pm ".toList := by decide

/-- C174: for a value not smaller (in decades) than its uncertainty, the value is printed to the uncertainty's first digit: as many
decimals as decades between them, at most half a unit of that digit away; the uncertainty is printed to its first digit. -/
theorem C174_reported (v u : ℝ) (a b : ℤ) (hv : Decade v a) (hu : Decade u b) (hab : b ≤ a) :
    ∃ tv tu, Shown (.fin v) (.fin u) tv tu ∧ (decimals tv : ℤ) = a - b ∧ |reads tv - v| ≤ 1 / 2 * 10 ^ b ∧
      ((10 : ℝ) ^ a ≤ |v| → ∃ z : ℤ, reads tv = z * 10 ^ b) ∧
      decimals tu = 0 ∧ |reads tu - u| ≤ 1 / 2 * 10 ^ b := by
  obtain ⟨v1, v2, v3, v4⟩ := sci_e v a hv
  obtain ⟨u1, u2, u3, u4⟩ := sci_e u b hu
  have hn : ((a - b).natAbs : ℤ) = a - b := by omega
  refine ⟨fmtE (a - b).natAbs (.fin v), fmtE 0 (.fin u), ?_, ?_, ?_, ?_, ?_, ?_⟩
  · unfold Shown valUncert
    rw [if_pos (show Fl.isFinite (.fin _) from trivial), calc_fin, calc_fin, u1, v1, pm_eq]
  · show (decimals (sciText _ (sci _ v)) : ℤ) = _
    rw [(sciText_reads _ _ (sci_lt _ v)).2, hn]
  · obtain ⟨z, -, h⟩ := fmt_reads (a - b).natAbs v hv.ne_zero
    refine le_trans h ?_
    rw [hn]
    exact mul_le_mul_of_nonneg_left (zpow_le_zpow_right₀ (by norm_num) (by omega)) (by norm_num)
  · intro hle
    obtain ⟨z, h, -⟩ := fmt_reads (a - b).natAbs v hv.ne_zero
    refine ⟨z, ?_⟩
    rw [h, hn, v4 hle]; congr 2; ring
  · exact (sciText_reads _ _ (sci_lt _ u)).2
  · obtain ⟨z, -, h⟩ := fmt_reads 0 u hu.ne_zero
    refine le_trans h ?_
    exact mul_le_mul_of_nonneg_left (zpow_le_zpow_right₀ (by norm_num) (by push_cast; omega)) (by norm_num)

/-- C174 (violated expectation): a value smaller than its uncertainty is printed with *more* decimals the smaller it is: `b - a`
decimals below its own first digit, i.e. down to `10^(2a - b)`, although its uncertainty is `10^b`. -/
theorem C174_small_value (v u : ℝ) (a b : ℤ) (hv : Decade v a) (hu : Decade u b) (hab : a < b) :
    ∃ tv tu, Shown (.fin v) (.fin u) tv tu ∧ (decimals tv : ℤ) = b - a ∧ |reads tv - v| ≤ 1 / 2 * 10 ^ (2 * a - b) := by
  obtain ⟨v1, v2, v3, v4⟩ := sci_e v a hv
  obtain ⟨u1, u2, u3, u4⟩ := sci_e u b hu
  have hn : ((a - b).natAbs : ℤ) = b - a := by omega
  refine ⟨fmtE (a - b).natAbs (.fin v), fmtE 0 (.fin u), ?_, ?_, ?_⟩
  · unfold Shown valUncert
    rw [if_pos (show Fl.isFinite (.fin _) from trivial), calc_fin, calc_fin, u1, v1, pm_eq]
  · show (decimals (sciText _ (sci _ v)) : ℤ) = _
    rw [(sciText_reads _ _ (sci_lt _ v)).2, hn]
  · obtain ⟨z, -, h⟩ := fmt_reads (a - b).natAbs v hv.ne_zero
    refine le_trans h ?_
    rw [hn]
    exact mul_le_mul_of_nonneg_left (zpow_le_zpow_right₀ (by norm_num) (by omega)) (by norm_num)

/-- C174: a vanishing uncertainty counts as of order one: `|a|` decimals -/
theorem C174_zero_uncertainty (v : ℝ) (a : ℤ) (hv : Decade v a) :
    ∃ tv, Shown (.fin v) (.fin 0) tv "0e+00".toList ∧ (decimals tv : ℤ) = |a| := by
  obtain ⟨v1, -⟩ := sci_e v a hv
  have hz : ∀ d, sci d 0 = ⟨false, 0, 0⟩ := fun d => by unfold sci; rw [if_pos rfl]
  refine ⟨fmtE a.natAbs (.fin v), ?_, ?_⟩
  · unfold Shown valUncert
    rw [if_pos (show Fl.isFinite (.fin _) from trivial), calc_fin, calc_fin, v1, pm_eq, hz]
    simp only [sub_zero]
    have : fmtE 0 (.fin 0) = "0e+00".toList := by
      show sciText 0 (sci 0 0) = _
      rw [hz]; decide
    rw [this]
  · show (decimals (sciText _ (sci _ v)) : ℤ) = _
    rw [(sciText_reads _ _ (sci_lt _ v)).2]; simp

/-- C174: without a finite uncertainty four digits are printed, whatever the value; a finite uncertainty of a value that is not
finite raises `ValueError` -/
theorem C174_nonfinite (v u : Fl) :
    (¬ u.isFinite → ∃ tv tu, Shown v u tv tu ∧ (∀ x, v = .fin x → decimals tv = 3)) ∧
    (u.isFinite → ¬ v.isFinite → valUncert v u = .error .valueError) ∧
    (u.isFinite → v.isFinite → ∃ tv tu, Shown v u tv tu) := by
  refine ⟨fun hu => ⟨fmtE 3 v, fmtE 0 u, ?_, ?_⟩, fun hu hv => ?_, fun hu hv => ?_⟩
  · unfold Shown valUncert; rw [if_neg hu, pm_eq]
  · rintro x rfl; exact (sciText_reads _ _ (sci_lt _ x)).2
  · cases u with
    | fin r => unfold valUncert; rw [if_pos hu, calc_fin, calc_nonfin v hv]
    | _ => exact absurd hu (by simp [Fl.isFinite])
  · cases u with
    | fin r =>
      cases v with
      | fin s => exact ⟨_, _, by unfold Shown valUncert; rw [if_pos hu, calc_fin, calc_fin, pm_eq]⟩
      | _ => exact absurd hv (by simp [Fl.isFinite])
    | _ => exact absurd hu (by simp [Fl.isFinite])

example : Decade 3.1415 0 ∧ Decade 0.01 (-2) := by
  constructor <;> constructor <;> norm_num [abs_of_pos]

/-! ### C175: powers of ten -/

/-- the two-character sequence `ab` does not occur -/
def NoPair (a b : Char) (s : Str) : Prop := ¬ [a, b] <:+: s

theorem rep2_none (a b : Char) (new s : Str) (h : NoPair a b s) : replGo [a, b] new 0 s = s := Labels.replGo_of_not_infix _ _ _ h

theorem rep2_append (a b : Char) (new : Str) : ∀ (n : ℕ) (p q : Str), p.length ≤ n → ¬ (p.getLast? = some a ∧ q.head? = some b) →
    replGo [a, b] new 0 (p ++ q) = replGo [a, b] new 0 p ++ replGo [a, b] new 0 q := by
  intro n
  induction n with
  | zero =>
    intro p q hp _
    rw [List.length_eq_zero_iff.mp (Nat.le_zero.mp hp)]
    rfl
  | succ n ih =>
    intro p q hp h
    match p, hp, h with
    | [], _, _ => rfl
    | [c], _, h =>
      have hno : ∀ r, r = q ∨ r = [] → ¬ [a, b] <+: c :: r := by
        rintro r hr ⟨t, ht⟩
        simp only [List.cons_append, List.nil_append, List.cons.injEq] at ht
        rcases hr with rfl | rfl
        · exact h ⟨by simp [ht.1], by rw [← ht.2]; rfl⟩
        · exact absurd ht.2 (by simp)
      rw [List.singleton_append, Labels.replGo_cons _ _ _ _ (hno q (Or.inl rfl)), Labels.replGo_cons _ _ _ _ (hno [] (Or.inr rfl))]
      rfl
    | c :: c' :: p, hp, h =>
      by_cases hm : c = a ∧ c' = b
      · obtain ⟨rfl, rfl⟩ := hm
        have e1 := Labels.replGo_match [c, c'] new (p ++ q) (by simp)
        have e2 := Labels.replGo_match [c, c'] new p (by simp)
        simp only [List.cons_append, List.nil_append] at e1 e2 ⊢
        rw [e1, e2, ih p q (by simp at hp; omega), List.append_assoc]
        rintro ⟨h1, h2⟩
        refine h ⟨?_, h2⟩
        cases p with
        | nil => simp at h1
        | cons x p => rw [List.getLast?_cons_cons, List.getLast?_cons_cons]; exact h1
      · have hno : ∀ r, ¬ [a, b] <+: c :: c' :: r := by
          rintro r ⟨t, ht⟩
          simp only [List.cons_append, List.nil_append, List.cons.injEq] at ht
          exact hm ⟨ht.1.symm, ht.2.1.symm⟩
        have := ih (c' :: p) q (by simp at hp ⊢; omega) (by
          rintro ⟨h1, h2⟩
          exact h ⟨by rw [List.getLast?_cons_cons]; exact h1, h2⟩)
        simp only [List.cons_append] at this ⊢
        rw [Labels.replGo_cons _ _ _ _ (hno _), Labels.replGo_cons _ _ _ _ (hno _), this, List.cons_append]

/-- appending a text that does not begin with `b` -/
theorem rep2_app_head (a b : Char) (new p q : Str) (h : q.head? ≠ some b) :
    replGo [a, b] new 0 (p ++ q) = replGo [a, b] new 0 p ++ replGo [a, b] new 0 q :=
  rep2_append a b new _ p q le_rfl (fun h' => h h'.2)

/-- a two-character pattern between two texts -/
theorem rep2_mid (a b : Char) (hab : a ≠ b) (new p q : Str) (hp : NoPair a b p) :
    replGo [a, b] new 0 (p ++ a :: b :: q) = p ++ (new ++ replGo [a, b] new 0 q) := by
  have h := rep2_append a b new _ p (a :: b :: q) le_rfl (by rintro ⟨-, h⟩; simp at h; exact hab h)
  rw [h, rep2_none a b new p hp]
  congr 1
  exact Labels.replGo_match [a, b] new q (by simp)

theorem NoPair.of_not_mem {a b : Char} {s : Str} (h : a ∉ s ∨ b ∉ s) : NoPair a b s := by
  rintro ⟨x, y, rfl⟩
  rcases h with h | h <;> exact h (by simp)

theorem NoPair.append {a b : Char} {p q : Str} (hp : NoPair a b p) (hq : NoPair a b q) (h : p.getLast? ≠ some a ∨ q.head? ≠ some b) :
    NoPair a b (p ++ q) := by
  intro hi
  have hrep : ∀ r : Str, [a, b] <:+: r ↔ ∃ x y, r = x ++ a :: b :: y := by
    intro r; constructor
    · rintro ⟨x, y, h⟩; exact ⟨x, y, by rw [← h]; simp⟩
    · rintro ⟨x, y, h⟩; exact ⟨x, y, by rw [h]; simp⟩
  obtain ⟨x, y, e⟩ := (hrep _).mp hi
  rcases List.append_eq_append_iff.mp e with ⟨t, h1, h2⟩ | ⟨t, h1, h2⟩
  · exact hq ((hrep _).mpr ⟨t, y, h2⟩)
  · match t, h1, h2 with
    | [], h1, h2 => exact hq ((hrep _).mpr ⟨[], y, h2.symm⟩)
    | [c], h1, h2 =>
      simp only [List.cons_append, List.nil_append, List.cons.injEq] at h2
      obtain ⟨rfl, h2⟩ := h2
      rcases h with h | h
      · exact h (by rw [h1]; simp)
      · exact h (by rw [← h2]; rfl)
    | c :: c' :: t, h1, h2 =>
      simp only [List.cons_append, List.cons.injEq] at h2
      obtain ⟨rfl, rfl, h2⟩ := h2
      exact hp ((hrep _).mpr ⟨x, t, h1⟩)

/-- a text without the four rewritten pairs -/
def Calm (s : Str) : Prop := NoPair 'e' '+' s ∧ NoPair 'e' '-' s ∧ NoPair '+' '0' s ∧ NoPair '-' '0' s

theorem powSub_calm (s : Str) (h : Calm s) : powSub s = s := by
  unfold powSub
  rw [rep2_none _ _ _ _ h.1, rep2_none _ _ _ _ h.2.1, rep2_none _ _ _ _ h.2.2.1, rep2_none _ _ _ _ h.2.2.2]

theorem head_replGo (old new : Str) (c d : Char) (s : Str) (hc : c ≠ d) (ho : old.head? = some d) :
    replGo old new 0 (c :: s) = c :: replGo old new 0 s := by
  apply Labels.replGo_cons
  rintro ⟨t, ht⟩
  cases old with
  | nil => simp at ho
  | cons x o => simp at ho ht; exact hc (by rw [← ht.1, ho])

/-- the four substitutions act separately on two texts when the second begins with a plain character -/
theorem powSub_append (p : Str) (c : Char) (q : Str) (hc : c ≠ '+' ∧ c ≠ '-' ∧ c ≠ '0' ∧ c ≠ 'e') : powSub (p ++ c :: q) = powSub p ++ powSub (c :: q) := by
  have hh : ∀ (a b x : Char) (new r : Str), x ≠ a → ∃ r', replGo [a, b] new 0 (x :: r) = x :: r' := fun a b x new r h =>
    ⟨_, head_replGo _ _ _ a _ h rfl⟩
  obtain ⟨h1, h2, h3, h4⟩ := hc
  unfold powSub
  rw [rep2_app_head 'e' '+' _ p (c :: q) (by simpa using h1)]
  obtain ⟨r1, e1⟩ := hh 'e' '+' c (times ++ ['+']) q h4
  rw [e1, rep2_app_head 'e' '-' _ _ (c :: r1) (by simpa using h2)]
  obtain ⟨r2, e2⟩ := hh 'e' '-' c (times ++ ['-']) r1 h4
  rw [e2, rep2_app_head '+' '0' _ _ (c :: r2) (by simpa using h3)]
  obtain ⟨r3, e3⟩ := hh '+' '0' c ['+'] r2 h1
  rw [e3, rep2_app_head '-' '0' _ _ (c :: r3) (by simpa using h3)]

/-- lines are converted one by one -/
theorem powSub_join (ls : List Str) : powSub (Chars.join '\n' ls) = Chars.join '\n' (ls.map powSub) := by
  induction ls with
  | nil => rfl
  | cons l ls ih =>
    cases ls with
    | nil => rfl
    | cons m ls =>
      simp only [List.map_cons, Chars.join] at ih ⊢
      rw [powSub_append _ _ _ (by decide)]
      have : powSub ('\n' :: Chars.join '\n' (m :: ls)) = '\n' :: powSub (Chars.join '\n' (m :: ls)) := by
        unfold powSub
        rw [head_replGo _ _ '\n' 'e' _ (by decide) rfl, head_replGo _ _ '\n' 'e' _ (by decide) rfl,
          head_replGo _ _ '\n' '+' _ (by decide) rfl, head_replGo _ _ '\n' '-' _ (by decide) rfl]
      rw [this, ih]

theorem replGo_not_mem (c : Char) (old new : Str) (hn : c ∉ new) : ∀ (s : Str) (k : ℕ), c ∉ s → c ∉ replGo old new k s := by
  intro s
  induction s with
  | nil => intro k _; cases k <;> simp [replGo]
  | cons a s ih =>
    intro k h
    simp only [List.mem_cons, not_or] at h
    cases k with
    | succ k => exact ih k h.2
    | zero =>
      rw [replGo]
      split_ifs
      · simp only [List.mem_append, not_or]; exact ⟨hn, ih _ h.2⟩
      · simp only [List.mem_cons, not_or]; exact ⟨h.1, ih _ h.2⟩

theorem newline_powSub (s : Str) (h : '\n' ∉ s) : '\n' ∉ powSub s := by
  unfold powSub
  exact replGo_not_mem _ _ _ (by decide) _ _ (replGo_not_mem _ _ _ (by decide) _ _ (replGo_not_mem _ _ _ (by decide) _ _
    (replGo_not_mem _ _ _ (by decide) _ _ h)))

/-- one line after the conversion -/
def convLine (l : Str) : Str := joinPm ((splitPm (powSub l)).map closeBrace)

theorem convertPow_lines (ls : List Str) (hne : ls ≠ []) (h : ∀ l ∈ ls, '\n' ∉ l) : convertPow ls = ls.map convLine := by
  unfold convertPow
  rw [powSub_join, Chars.split_join]
  · rw [List.map_map]; rfl
  · simpa using hne
  · intro p hp
    obtain ⟨l, hl, rfl⟩ := List.mem_map.mp hp
    exact newline_powSub l (h l hl)

/-! texts around `\pm` -/

/-- `\pm` does not occur -/
def NoPm (s : Str) : Prop := ¬ ['\\', 'p', 'm'] <:+: s

theorem splitPm_cons (c : Char) (cs : Str) (h : ¬ ['\\', 'p', 'm'] <+: c :: cs) :
    splitPm (c :: cs) = match splitPm cs with | [] => [[c]] | p :: ps => (c :: p) :: ps := by
  rw [splitPm]
  · rfl
  · rintro r rfl rfl
    exact h ⟨r, rfl⟩

theorem splitPm_none (s : Str) (h : NoPm s) : splitPm s = [s] := by
  induction s with
  | nil => rfl
  | cons c cs ih =>
    rw [splitPm_cons c cs (fun hp => h hp.isInfix), ih (fun hi => h (hi.trans (List.suffix_cons c cs).isInfix))]

theorem splitPm_mid (p q : Str) (h : NoPm p) (hl : ∀ s, s <:+ p → s ≠ ['\\'] ∧ s ≠ ['\\', 'p']) :
    splitPm (p ++ '\\' :: 'p' :: 'm' :: q) = p :: splitPm q := by
  induction p with
  | nil => simp [splitPm]
  | cons c cs ih =>
    rw [List.cons_append, splitPm_cons, ih (fun hi => h (hi.trans (List.suffix_cons c cs).isInfix))
      (fun s hs => hl s (hs.trans (List.suffix_cons c cs)))]
    rintro ⟨t, ht⟩
    match cs, h, hl, ht with
    | [], h, hl, ht => simp at ht
    | [d], h, hl, ht => simp at ht
    | d :: e :: r, h, hl, ht =>
      simp only [List.cons_append, List.nil_append, List.cons.injEq] at ht
      obtain ⟨rfl, rfl, rfl, -⟩ := ht
      exact h ⟨[], r, rfl⟩

/-- the exponent with an explicit sign and without padding -/
def signed (e : ℤ) : Str := (if e < 0 then '-' else '+') :: Nat.toDigits 10 e.natAbs

/-- Specification: the number in power-of-ten notation, closing brace excluded -/
def powered (t : Str) : Str := before 'e' t ++ " \\times 10^{".toList ++ signed (readExp (behind 'e' t))

theorem times_eq : times = " \\times 10^{".toList := by decide

/-- the exponent: substitution removes the padding zero -/
theorem pad_removed (e : ℤ) : ∀ sg, sg = (if e < 0 then '-' else '+') → 
    replGo [sg, '0'] [sg] 0 (expText e) = signed e := by
  intro sg hsg
  have hd := toDigits_digit e.natAbs
  have hnp : NoPair sg '0' (Nat.toDigits 10 e.natAbs) := NoPair.of_not_mem (Or.inl (not_mem_of_digit hd (by rw [hsg]; split_ifs <;> decide)))
  unfold expText signed
  rw [← hsg]
  by_cases h : e.natAbs < 10
  · rw [if_pos h]
    have := Labels.replGo_match [sg, '0'] [sg] (Nat.toDigits 10 e.natAbs) (by simp)
    simp only [List.cons_append, List.nil_append] at this
    rw [this, rep2_none _ _ _ _ hnp]
  · rw [if_neg h]
    have hno : NoPair sg '0' (sg :: Nat.toDigits 10 e.natAbs) := by
      have h1 : NoPair sg '0' [sg] := NoPair.of_not_mem (Or.inr (by rw [hsg]; split_ifs <;> decide))
      refine NoPair.append h1 hnp (Or.inr ?_)
      intro hh
      have hlead : ∀ n : ℕ, n ≠ 0 → (Nat.toDigits 10 n).head? ≠ some '0' := by
        intro n
        induction n using Nat.strong_induction_on with
        | _ n ih =>
          intro hn
          by_cases hlt : n < 10
          · rw [Nat.toDigits_of_lt_base hlt]
            interval_cases n <;> first | exact absurd rfl hn | decide
          · have : Nat.toDigits 10 n = Nat.toDigits 10 (n / 10) ++ [Nat.digitChar (n % 10)] := Nat.toDigits_of_base_le (by norm_num) (by omega)
            rw [this, List.head?_append_of_ne_nil _ Nat.toDigits_ne_nil]
            exact ih (n / 10) (by omega) (by omega)
      exact hlead e.natAbs (by omega) hh
    exact rep2_none _ _ _ _ hno

theorem NoPm.append {p q : Str} (hp : NoPm p) (hq : NoPm q) (h1 : q.head? ≠ some 'p') (h2 : q.head? ≠ some 'm') : NoPm (p ++ q) := by
  intro hi
  have hrep : ∀ r : Str, ['\\', 'p', 'm'] <:+: r ↔ ∃ x y, r = x ++ '\\' :: 'p' :: 'm' :: y := by
    intro r; constructor
    · rintro ⟨x, y, h⟩; exact ⟨x, y, by rw [← h]; simp⟩
    · rintro ⟨x, y, h⟩; exact ⟨x, y, by rw [h]; simp⟩
  obtain ⟨x, y, e⟩ := (hrep _).mp hi
  rcases List.append_eq_append_iff.mp e with ⟨t, e1, e2⟩ | ⟨t, e1, e2⟩
  · exact hq ((hrep _).mpr ⟨t, y, e2⟩)
  · match t, e1, e2 with
    | [], e1, e2 => exact hq ((hrep _).mpr ⟨[], y, e2.symm⟩)
    | [c], e1, e2 =>
      simp only [List.cons_append, List.nil_append, List.cons.injEq] at e2
      exact h1 (by rw [← e2.2]; rfl)
    | [c, c'], e1, e2 =>
      simp only [List.cons_append, List.nil_append, List.cons.injEq] at e2
      exact h2 (by rw [← e2.2.2]; rfl)
    | c :: c' :: c'' :: t, e1, e2 =>
      simp only [List.cons_append, List.cons.injEq] at e2
      obtain ⟨rfl, rfl, rfl, e2⟩ := e2
      exact hp ((hrep _).mpr ⟨x, t, e1⟩)

theorem NoPm.of_not_mem {s : Str} (h : '\\' ∉ s) : NoPm s := by
  rintro ⟨x, y, rfl⟩; exact h (by simp)

/-- numbers as printed: a sign only before a non-zero first digit -/
def Printed (d : ℕ) (s : Sci) : Prop := s.m < 10 ^ (d + 1) ∧ (s.neg = true → 10 ^ d ≤ s.m)

theorem sci_printed (d : ℕ) (x : ℝ) : Printed d (sci d x) := by
  refine ⟨sci_lt d x, fun h => ?_⟩
  by_cases hx : x = 0
  · exfalso; unfold sci at h; rw [if_pos hx] at h; simp at h
  · exact (sci_digits d x hx).1

theorem absMant_not_minus (d m : ℕ) : '-' ∉ absMant d m := by
  intro h
  rcases absMant_chars d m _ h with h | h <;> exact absurd h (by decide)

theorem mant_calm (d : ℕ) (s : Sci) (h : Printed d s) : Calm (mantText d s) := by
  have he := e_not_mem_mant d s
  have hp : '+' ∉ mantText d s := by
    intro h
    rcases mant_chars d s _ h with h | h | h <;> exact absurd h (by decide)
  refine ⟨NoPair.of_not_mem (Or.inl he), NoPair.of_not_mem (Or.inl he), NoPair.of_not_mem (Or.inl hp), ?_⟩
  rw [mantText_eq]
  by_cases hn : s.neg = true
  · rw [if_pos hn]
    refine NoPair.append (NoPair.of_not_mem (Or.inr (by decide))) (NoPair.of_not_mem (Or.inl (absMant_not_minus d s.m))) (Or.inr ?_)
    have hge := h.2 hn
    have hlt : s.m / 10 ^ d < 10 := by
      rw [Nat.div_lt_iff_lt_mul (by positivity)]; have := h.1; rw [pow_succ] at this; omega
    have hpos : 0 < s.m / 10 ^ d := Nat.div_pos hge (by positivity)
    unfold absMant
    rw [Nat.mod_eq_of_lt hlt]
    generalize s.m / 10 ^ d = k at hlt hpos
    simp only [List.head?_cons, ne_eq, Option.some.injEq]
    interval_cases k <;> decide
  · rw [if_neg hn]
    exact NoPair.of_not_mem (Or.inl (absMant_not_minus d s.m))

/-- a text may be continued by a number: it is calm and ends in a blank -/
theorem calm_append {x t : Str} (hx : Calm x) (hl : x.getLast? = some ' ') (ht : Calm t) : Calm (x ++ t) := by
  obtain ⟨a1, a2, a3, a4⟩ := hx
  obtain ⟨b1, b2, b3, b4⟩ := ht
  refine ⟨a1.append b1 (Or.inl ?_), a2.append b2 (Or.inl ?_), a3.append b3 (Or.inl ?_), a4.append b4 (Or.inl ?_)⟩ <;> rw [hl] <;> decide

theorem mant_last (d : ℕ) (s : Sci) : ∃ c, (mantText d s).getLast? = some c ∧ c.isDigit = true := by
  rw [mantText_eq, List.getLast?_append]
  unfold absMant
  by_cases hd : d = 0
  · subst hd
    rw [if_pos rfl]
    exact ⟨_, rfl, digitChar_isDigit _⟩
  · obtain ⟨k, rfl⟩ : ∃ k, d = k + 1 := ⟨d - 1, by omega⟩
    rw [if_neg hd, digs]
    refine ⟨Nat.digitChar (s.m % 10), ?_, digitChar_isDigit _⟩
    simp [List.getLast?_cons, List.getLast?_append]

/-- a printed number in a line -/
theorem powSub_num (x : Str) (d : ℕ) (s : Sci) (hx : Calm x) (hl : x.getLast? = some ' ') (hs : Printed d s) :
    powSub (x ++ sciText d s) = x ++ mantText d s ++ times ++ signed s.e := by
  obtain ⟨y1, y2, y3, y4⟩ := calm_append hx hl (mant_calm d s hs)
  obtain ⟨c, hc, hcd⟩ := mant_last d s
  have hyl : (x ++ mantText d s).getLast? = some c := by rw [List.getLast?_append, hc]; rfl
  have hcne : ∀ a : Char, a.isDigit = false → c ≠ a := fun a ha h => by rw [h, ha] at hcd; exact absurd hcd (by decide)
  unfold sciText
  rw [← List.append_assoc]
  generalize x ++ mantText d s = y at *
  obtain ⟨E, hE, hEne, hEd, -⟩ := expText_eq s.e
  have hdig := toDigits_digit s.e.natAbs
  have nosign : ∀ (a : Char) (l : Str), a.isDigit = false → (∀ c ∈ l, c.isDigit = true) → a ∉ l := fun a l ha h => not_mem_of_digit h ha
  have htp : ∀ b, NoPair '+' b times := fun b => NoPair.of_not_mem (Or.inl (by decide))
  have htm : ∀ b, NoPair '-' b times := fun b => NoPair.of_not_mem (Or.inl (by decide))
  have hlast : (y ++ times).getLast? = some '{' := by rw [List.getLast?_append]; rfl
  have yt3 : NoPair '+' '0' (y ++ times) := y3.append (htp _) (Or.inr (by decide))
  have yt4 : NoPair '-' '0' (y ++ times) := y4.append (htm _) (Or.inr (by decide))
  by_cases hneg : s.e < 0
  · rw [if_pos hneg] at hE
    have hexp := pad_removed s.e '-' (by rw [if_pos hneg])
    have hsg : signed s.e = '-' :: Nat.toDigits 10 s.e.natAbs := by unfold signed; rw [if_pos hneg]
    have s1 : NoPair 'e' '+' (y ++ 'e' :: expText s.e) := by
      refine y1.append (NoPair.of_not_mem (Or.inr ?_)) (Or.inr (by simp))
      rw [hE]; simp; exact nosign '+' E (by decide) hEd
    have s2 : replGo ['e', '-'] (times ++ ['-']) 0 (y ++ 'e' :: expText s.e) = y ++ times ++ expText s.e := by
      rw [hE, rep2_mid 'e' '-' (by decide) _ _ _ y2, rep2_none _ _ _ _ (NoPair.of_not_mem (Or.inl (nosign 'e' E (by decide) hEd)))]
      simp
    have s3 : NoPair '+' '0' (y ++ times ++ expText s.e) := by
      refine yt3.append (NoPair.of_not_mem (Or.inl ?_)) (Or.inl (by rw [hlast]; decide))
      rw [hE]; simp; exact nosign '+' E (by decide) hEd
    unfold powSub
    rw [rep2_none _ _ _ _ s1, s2, rep2_none _ _ _ _ s3,
      rep2_append '-' '0' ['-'] _ (y ++ times) (expText s.e) le_rfl (by rintro ⟨h, -⟩; rw [hlast] at h; exact absurd h (by decide)),
      rep2_none _ _ _ _ yt4, hexp]
  · rw [if_neg hneg] at hE
    have hexp := pad_removed s.e '+' (by rw [if_neg hneg])
    have hsg : signed s.e = '+' :: Nat.toDigits 10 s.e.natAbs := by unfold signed; rw [if_neg hneg]
    have s1 : replGo ['e', '+'] (times ++ ['+']) 0 (y ++ 'e' :: expText s.e) = y ++ times ++ expText s.e := by
      rw [hE, rep2_mid 'e' '+' (by decide) _ _ _ y1, rep2_none _ _ _ _ (NoPair.of_not_mem (Or.inl (nosign 'e' E (by decide) hEd)))]
      simp
    have s2 : NoPair 'e' '-' (y ++ times ++ expText s.e) := by
      refine (y2.append (NoPair.of_not_mem (Or.inr (by decide))) (Or.inr (by decide))).append (NoPair.of_not_mem (Or.inr ?_)) (Or.inl (by rw [hlast]; decide))
      rw [hE]; simp; exact nosign '-' E (by decide) hEd
    have s4 : NoPair '-' '0' (y ++ times ++ signed s.e) := by
      refine yt4.append (NoPair.of_not_mem (Or.inl ?_)) (Or.inl (by rw [hlast]; decide))
      rw [hsg]; simp; exact nosign '-' _ (by decide) hdig
    unfold powSub
    rw [s1, rep2_none _ _ _ _ s2,
      rep2_append '+' '0' ['+'] _ (y ++ times) (expText s.e) le_rfl (by rintro ⟨h, -⟩; rw [hlast] at h; exact absurd h (by decide)),
      rep2_none _ _ _ _ yt3, hexp, rep2_none _ _ _ _ s4]

/-- Specification: a number in the annotation, in power-of-ten notation when it has an exponent; `tail` is the text up to the end of
its piece of the line -/
def shownPow (t tail : Str) : Str := if 'e' ∈ t then powered t ++ tail ++ ['}'] else t ++ tail

theorem powered_sci (d : ℕ) (s : Sci) : powered (sciText d s) = mantText d s ++ times ++ signed s.e := by
  obtain ⟨h1, h2⟩ := before_behind 'e' (mantText d s) (expText s.e) (e_not_mem_mant d s)
  unfold powered sciText
  rw [h1, h2, readExp_expText, times_eq]

/-- what a number becomes in a line -/
def midPow (t : Str) : Str := if 'e' ∈ t then powered t else t

theorem fmtE_nan (d : ℕ) : fmtE d .nan = ['n', 'a', 'n'] := rfl
theorem fmtE_pinf (d : ℕ) : fmtE d .pinf = ['i', 'n', 'f'] := rfl
theorem fmtE_ninf (d : ℕ) : fmtE d .ninf = ['-', 'i', 'n', 'f'] := rfl

theorem powSub_fmt (x : Str) (d : ℕ) (v : Fl) (hx : Calm x) (hl : x.getLast? = some ' ') :
    powSub (x ++ fmtE d v) = x ++ midPow (fmtE d v) := by
  have special : ∀ t : Str, Calm t → 'e' ∉ t → powSub (x ++ t) = x ++ midPow t := by
    intro t ht he
    rw [powSub_calm _ (calm_append hx hl ht)]; unfold midPow; rw [if_neg he]
  cases v with
  | nan => rw [fmtE_nan]; exact special _ ⟨NoPair.of_not_mem (by decide), NoPair.of_not_mem (by decide), NoPair.of_not_mem (by decide), NoPair.of_not_mem (by decide)⟩ (by decide)
  | pinf => rw [fmtE_pinf]; exact special _ ⟨NoPair.of_not_mem (by decide), NoPair.of_not_mem (by decide), NoPair.of_not_mem (by decide), NoPair.of_not_mem (by decide)⟩ (by decide)
  | ninf => rw [fmtE_ninf]; exact special _ ⟨NoPair.of_not_mem (by decide), NoPair.of_not_mem (by decide), NoPair.of_not_mem (by decide), NoPair.of_not_mem (by decide)⟩ (by decide)
  | fin r =>
    show powSub (x ++ sciText d (sci d r)) = x ++ midPow (sciText d (sci d r))
    rw [powSub_num x d _ hx hl (sci_printed d r)]
    unfold midPow
    rw [if_pos (by unfold sciText; simp), powered_sci]
    simp only [List.append_assoc]

theorem signed_chars (e : ℤ) : ∀ c ∈ signed e, c.isDigit = true ∨ c = '+' ∨ c = '-' := by
  intro c hc
  unfold signed at hc
  rcases List.mem_cons.mp hc with rfl | hc
  · split_ifs
    · exact Or.inr (Or.inr rfl)
    · exact Or.inr (Or.inl rfl)
  · exact Or.inl (toDigits_digit _ c hc)

/-- braces and `\pm` in a converted number -/
theorem midPow_fmt (d : ℕ) (v : Fl) : NoPm (midPow (fmtE d v)) ∧ (midPow (fmtE d v)).count '}' = 0 ∧
    (midPow (fmtE d v)).count '{' = (if 'e' ∈ fmtE d v then 1 else 0) ∧ (midPow (fmtE d v)).head? ≠ some 'p' ∧
    (midPow (fmtE d v)).head? ≠ some 'm' := by
  cases v with
  | nan => rw [fmtE_nan]; exact ⟨NoPm.of_not_mem (by decide), by decide, by decide, by decide, by decide⟩
  | pinf => rw [fmtE_pinf]; exact ⟨NoPm.of_not_mem (by decide), by decide, by decide, by decide, by decide⟩
  | ninf => rw [fmtE_ninf]; exact ⟨NoPm.of_not_mem (by decide), by decide, by decide, by decide, by decide⟩
  | fin r =>
    have hm : 'e' ∈ fmtE d (.fin r) := by show 'e' ∈ sciText d _; unfold sciText; simp
    rw [if_pos hm]
    unfold midPow
    rw [if_pos hm]
    show NoPm (powered (sciText d (sci d r))) ∧ (powered (sciText d (sci d r))).count '}' = 0 ∧ (powered (sciText d (sci d r))).count '{' = 1 ∧
      (powered (sciText d (sci d r))).head? ≠ some 'p' ∧ (powered (sciText d (sci d r))).head? ≠ some 'm'
    rw [powered_sci]
    have hM : ∀ a : Char, a.isDigit = false → a ≠ '.' → a ≠ '-' → a ∉ mantText d (sci d r) := by
      intro a h1 h2 h3 h
      rcases mant_chars d _ _ h with h | h | h
      · rw [h1] at h; exact absurd h (by decide)
      · exact h2 h
      · exact h3 h
    have hE : ∀ a : Char, a.isDigit = false → a ≠ '+' → a ≠ '-' → a ∉ signed (sci d r).e := by
      intro a h1 h2 h3 h
      rcases signed_chars _ _ h with h | h | h
      · rw [h1] at h; exact absurd h (by decide)
      · exact h2 h
      · exact h3 h
    obtain ⟨c, hc, -⟩ := mant_last d (sci d r)
    obtain ⟨a, t, ht⟩ : ∃ a t, mantText d (sci d r) = a :: t := by
      cases h : mantText d (sci d r) with
      | nil => rw [h] at hc; simp at hc
      | cons a t => exact ⟨a, t, rfl⟩
    have ha : a ∈ mantText d (sci d r) := by rw [ht]; simp
    have hes : ∃ t, signed (sci d r).e = (if (sci d r).e < 0 then '-' else '+') :: t := ⟨_, rfl⟩
    refine ⟨?_, ?_, ?_, ?_, ?_⟩
    · refine (NoPm.append (NoPm.append (NoPm.of_not_mem (hM _ (by decide) (by decide) (by decide))) ?_ (by decide) (by decide))
        (NoPm.of_not_mem (hE _ (by decide) (by decide) (by decide))) ?_ ?_)
      · unfold NoPm; decide
      · obtain ⟨t, h⟩ := hes; rw [h]; split_ifs <;> simp
      · obtain ⟨t, h⟩ := hes; rw [h]; split_ifs <;> simp
    · rw [List.count_append, List.count_append, List.count_eq_zero.mpr (hM '}' (by decide) (by decide) (by decide)),
        List.count_eq_zero.mpr (hE '}' (by decide) (by decide) (by decide))]
      decide
    · rw [List.count_append, List.count_append, List.count_eq_zero.mpr (hM '{' (by decide) (by decide) (by decide)),
        List.count_eq_zero.mpr (hE '{' (by decide) (by decide) (by decide))]
      decide
    · rw [ht]; intro h; simp at h; exact hM 'p' (by decide) (by decide) (by decide) (h ▸ ha)
    · rw [ht]; intro h; simp at h; exact hM 'm' (by decide) (by decide) (by decide) (h ▸ ha)

/-- a name that the annotation leaves alone: none of the rewritten pairs, no `\pm`, no newline, balanced braces -/
def PlainName (k : Str) : Prop := Calm k ∧ NoPm k ∧ '\n' ∉ k ∧ k.count '{' = k.count '}'

/-- C175: in power-of-ten notation a parameter line `k = v \pm u` shows exactly the same mantissas and exponents: each printed number
becomes mantissa, ` \times 10^{`, the signed exponent without padding, closed by one brace; `nan` and `inf` are kept. -/
theorem C175_line (k : Str) (hk : PlainName k) (v u : Fl) (n d : ℕ) :
    convertPow [k ++ " = ".toList ++ fmtE n v ++ " \\pm ".toList ++ fmtE d u] =
      [k ++ " = ".toList ++ shownPow (fmtE n v) " ".toList ++ "\\pm ".toList ++ shownPow (fmtE d u) []] := by
  obtain ⟨hcalm, hpm, hnl, hbr⟩ := hk
  have eqs : " = ".toList = [' ', '=', ' '] := by decide
  have pms : " \\pm ".toList = ' ' :: '\\' :: 'p' :: 'm' :: [' '] := by decide
  have pm2 : "\\pm ".toList = '\\' :: 'p' :: 'm' :: [' '] := by decide
  have sps : " ".toList = [' '] := by decide
  rw [eqs, pms, pm2, sps]
  have hcv : Calm (k ++ [' ', '=', ' ']) := by
    obtain ⟨a1, a2, a3, a4⟩ := hcalm
    refine ⟨a1.append (NoPair.of_not_mem (by decide)) (Or.inr (by decide)), a2.append (NoPair.of_not_mem (by decide)) (Or.inr (by decide)),
      a3.append (NoPair.of_not_mem (by decide)) (Or.inr (by decide)), a4.append (NoPair.of_not_mem (by decide)) (Or.inr (by decide))⟩
  have hlv : (k ++ [' ', '=', ' ']).getLast? = some ' ' := by rw [List.getLast?_append]; rfl
  have hcu : Calm [' ', '\\', 'p', 'm', ' '] :=
    ⟨NoPair.of_not_mem (by decide), NoPair.of_not_mem (by decide), NoPair.of_not_mem (by decide), NoPair.of_not_mem (by decide)⟩
  obtain ⟨v1, v2, v3, v4, v5⟩ := midPow_fmt n v
  obtain ⟨u1, u2, u3, u4, u5⟩ := midPow_fmt d u
  have hps : powSub (k ++ [' ', '=', ' '] ++ fmtE n v ++ ' ' :: '\\' :: 'p' :: 'm' :: [' '] ++ fmtE d u) =
      (k ++ [' ', '=', ' '] ++ midPow (fmtE n v) ++ [' ']) ++ '\\' :: 'p' :: 'm' :: ' ' :: midPow (fmtE d u) := by
    have e : k ++ [' ', '=', ' '] ++ fmtE n v ++ ' ' :: '\\' :: 'p' :: 'm' :: [' '] ++ fmtE d u =
        (k ++ [' ', '=', ' '] ++ fmtE n v) ++ ' ' :: ('\\' :: 'p' :: 'm' :: ' ' :: fmtE d u) := by simp
    rw [e, powSub_append _ _ _ (by decide), powSub_fmt _ n v hcv hlv]
    have := powSub_fmt [' ', '\\', 'p', 'm', ' '] d u hcu (by decide)
    simp only [List.cons_append, List.nil_append] at this
    rw [this]; simp
  have hleft : NoPm (k ++ [' ', '=', ' '] ++ midPow (fmtE n v) ++ [' ']) := by
    refine NoPm.append (NoPm.append (NoPm.append hpm (NoPm.of_not_mem (by decide)) (by decide) (by decide)) v1 v4 v5)
      (NoPm.of_not_mem (by decide)) (by decide) (by decide)
  have hright : NoPm (' ' :: midPow (fmtE d u)) := NoPm.append (p := [' ']) (NoPm.of_not_mem (by decide)) u1 u4 u5
  have hnl2 : ∀ (m : ℕ) (w : Fl), '\n' ∉ fmtE m w := by
    intro m w
    cases w with
    | nan => rw [fmtE_nan]; decide
    | pinf => rw [fmtE_pinf]; decide
    | ninf => rw [fmtE_ninf]; decide
    | fin r =>
      show '\n' ∉ sciText m (sci m r)
      obtain ⟨E, hE, -, hEd, -⟩ := expText_eq (sci m r).e
      unfold sciText
      intro h
      rcases List.mem_append.mp h with h | h
      · rcases mant_chars m _ _ h with h | h | h <;> exact absurd h (by decide)
      · rw [hE] at h
        rcases List.mem_cons.mp h with h | h
        · exact absurd h (by decide)
        · rcases List.mem_cons.mp h with h | h
          · revert h; split_ifs <;> decide
          · exact absurd (hEd _ h) (by decide)
  rw [convertPow_lines _ (by simp)]
  · simp only [List.map_cons, List.map_nil, convLine]
    rw [hps, splitPm_mid _ _ hleft, splitPm_none _ hright]
    · simp only [List.map_cons, List.map_nil, joinPm]
      have c1 : closeBrace (k ++ [' ', '=', ' '] ++ midPow (fmtE n v) ++ [' ']) = k ++ [' ', '=', ' '] ++ shownPow (fmtE n v) [' '] := by
        unfold closeBrace
        have b1 : (k ++ [' ', '=', ' '] ++ midPow (fmtE n v) ++ [' ']).count '}' = k.count '}' := by
          rw [List.count_append, List.count_append, List.count_append, v2]; simp
        have b2 : (k ++ [' ', '=', ' '] ++ midPow (fmtE n v) ++ [' ']).count '{' = k.count '}' + (if 'e' ∈ fmtE n v then 1 else 0) := by
          rw [List.count_append, List.count_append, List.count_append, v3, hbr]; simp
        rw [b1, b2]
        unfold shownPow midPow
        by_cases he : 'e' ∈ fmtE n v
        · rw [if_pos he, if_pos he, if_pos he, if_pos (by omega)]; simp
        · rw [if_neg he, if_neg he, if_neg he, if_neg (by omega)]; simp
      have c2 : closeBrace (' ' :: midPow (fmtE d u)) = ' ' :: shownPow (fmtE d u) [] := by
        unfold closeBrace
        have b1 : (' ' :: midPow (fmtE d u)).count '}' = 0 := by rw [List.count_cons, u2]; decide
        have b2 : (' ' :: midPow (fmtE d u)).count '{' = (if 'e' ∈ fmtE d u then 1 else 0) := by rw [List.count_cons, u3]; simp
        rw [b1, b2]
        unfold shownPow midPow
        by_cases he : 'e' ∈ fmtE d u
        · rw [if_pos he, if_pos he, if_pos he, if_pos (by omega)]; simp
        · rw [if_neg he, if_neg he, if_neg he, if_neg (by omega)]; simp
      rw [c1, c2]; simp
    · intro s hs
      constructor
      · rintro rfl
        obtain ⟨t, ht⟩ := hs
        have := congrArg List.getLast? ht
        rw [List.getLast?_append, List.getLast?_append] at this
        simp at this
      · rintro rfl
        obtain ⟨t, ht⟩ := hs
        have := congrArg List.getLast? ht
        rw [List.getLast?_append, List.getLast?_append] at this
        simp at this
  · intro l hl
    simp only [List.mem_singleton] at hl
    subst hl
    simp only [List.mem_append, not_or]
    exact ⟨⟨⟨⟨hnl, by decide⟩, hnl2 n v⟩, by decide⟩, hnl2 d u⟩

/-- C175: lines are converted independently of each other, and their number is kept -/
theorem C175_lines (ls : List Str) (hne : ls ≠ []) (h : ∀ l ∈ ls, '\n' ∉ l) :
    convertPow ls = ls.flatMap (fun l => convertPow [l]) ∧ (convertPow ls).length = ls.length := by
  have h1 := convertPow_lines ls hne h
  have h2 : ∀ l ∈ ls, convertPow [l] = [convLine l] := fun l hl => convertPow_lines [l] (by simp) (by simpa using h l hl)
  refine ⟨?_, by rw [h1, List.length_map]⟩
  rw [h1]
  clear h1 hne h
  induction ls with
  | nil => rfl
  | cons a ls ih =>
    rw [List.map_cons, List.flatMap_cons, h2 a (by simp), ih (fun l hl => h2 l (by simp [hl]))]
    rfl

/-- C175: a line of plain text (such as the formula) is kept -/
theorem C175_plain_kept (l : Str) (h : PlainName l) : convertPow [l] = [l] := by
  obtain ⟨h1, h2, h3, h4⟩ := h
  rw [convertPow_lines _ (by simp) (by simpa using h3)]
  simp only [List.map_cons, List.map_nil, convLine]
  rw [powSub_calm _ h1, splitPm_none _ h2]
  simp only [List.map_cons, List.map_nil, joinPm, closeBrace]
  rw [if_neg (by omega)]

/-- C175 (violated expectation): the substitution does not look at numbers: `e-` and `-0` are rewritten in any text, so a formula
`p e- q` or `p -0 q` is not shown as written -/
theorem C175_formula_damaged (p q : Str) (hp : PlainName p) (hq : PlainName q) (hq0 : q.head? ≠ some '0')
    (hl : p.getLast? = some ' ') (hqp : q.head? ≠ some 'p') (hqm : q.head? ≠ some 'm') :
    convertPow [p ++ "e-".toList ++ q] = [p ++ " \\times 10^{-".toList ++ q ++ ['}']] ∧
    convertPow [p ++ "-0".toList ++ q] = [p ++ "-".toList ++ q] := by
  obtain ⟨⟨p1, p2, p3, p4⟩, pp, pn, pb⟩ := hp
  obtain ⟨⟨q1, q2, q3, q4⟩, qp, qn, qb⟩ := hq
  have t1 : "e-".toList = ['e', '-'] := by decide
  have t2 : " \\times 10^{-".toList = times ++ ['-'] := by decide
  have t3 : "-0".toList = ['-', '0'] := by decide
  have t4 : "-".toList = ['-'] := by decide
  rw [t1, t2, t3, t4]
  constructor
  · rw [convertPow_lines _ (by simp) (by
      intro l hl; simp only [List.mem_singleton] at hl; subst hl; simp only [List.mem_append, not_or]; exact ⟨⟨pn, by decide⟩, qn⟩)]
    simp only [List.map_cons, List.map_nil, convLine]
    have n1 : NoPair 'e' '+' (p ++ ['e', '-'] ++ q) :=
      (p1.append (NoPair.of_not_mem (by decide)) (Or.inr (by decide))).append q1 (Or.inl (by simp))
    have n2 : replGo ['e', '-'] (times ++ ['-']) 0 (p ++ ['e', '-'] ++ q) = p ++ (times ++ ['-']) ++ q := by
      rw [List.append_assoc]
      show replGo ['e', '-'] (times ++ ['-']) 0 (p ++ 'e' :: '-' :: q) = _
      rw [rep2_mid 'e' '-' (by decide) _ _ _ p2, rep2_none _ _ _ _ q2]; simp
    have hlast : (p ++ (times ++ ['-'])).getLast? = some '-' := by simp [List.getLast?_append]
    have n3 : NoPair '+' '0' (p ++ (times ++ ['-']) ++ q) :=
      (p3.append (NoPair.of_not_mem (Or.inl (by decide))) (Or.inr (by decide))).append q3 (Or.inl (by rw [hlast]; decide))
    have n4 : NoPair '-' '0' (p ++ (times ++ ['-']) ++ q) := by
      refine (p4.append ?_ (Or.inr (by decide))).append q4 (Or.inr hq0)
      exact (NoPair.of_not_mem (Or.inl (by decide)) : NoPair '-' '0' times).append (NoPair.of_not_mem (by decide)) (Or.inl (by decide))
    have hs : powSub (p ++ ['e', '-'] ++ q) = p ++ (times ++ ['-']) ++ q := by
      unfold powSub; rw [rep2_none _ _ _ _ n1, n2, rep2_none _ _ _ _ n3, rep2_none _ _ _ _ n4]
    rw [hs, splitPm_none]
    · simp only [List.map_cons, List.map_nil, joinPm, closeBrace]
      rw [if_pos]
      · rw [List.count_append (a := '}'), List.count_append (a := '}') (l₁ := p), List.count_append (a := '{'), List.count_append (a := '{') (l₁ := p), pb, qb]
        have e1 : (times ++ ['-']).count '}' = 0 := by decide
        have e2 : (times ++ ['-']).count '{' = 1 := by decide
        rw [e1, e2]; omega
    · exact NoPm.append (NoPm.append pp (by unfold NoPm; decide) (by decide) (by decide)) qp hqp hqm
  · rw [convertPow_lines _ (by simp) (by
      intro l hl; simp only [List.mem_singleton] at hl; subst hl; simp only [List.mem_append, not_or]; exact ⟨⟨pn, by decide⟩, qn⟩)]
    simp only [List.map_cons, List.map_nil, convLine]
    have g : ∀ b c, b ≠ c → p.getLast? ≠ some b ∨ ['-', '0'].head? ≠ some c → True := fun _ _ _ _ => trivial
    have n1 : NoPair 'e' '+' (p ++ ['-', '0'] ++ q) :=
      (p1.append (NoPair.of_not_mem (by decide)) (Or.inr (by decide))).append q1 (Or.inl (by simp))
    have n2 : NoPair 'e' '-' (p ++ ['-', '0'] ++ q) :=
      (p2.append (NoPair.of_not_mem (by decide)) (Or.inl (by rw [hl]; decide))).append q2 (Or.inl (by simp))
    have n3 : NoPair '+' '0' (p ++ ['-', '0'] ++ q) :=
      (p3.append (NoPair.of_not_mem (by decide)) (Or.inr (by decide))).append q3 (Or.inl (by simp))
    have n4 : replGo ['-', '0'] ['-'] 0 (p ++ ['-', '0'] ++ q) = p ++ ['-'] ++ q := by
      rw [List.append_assoc]
      show replGo ['-', '0'] ['-'] 0 (p ++ '-' :: '0' :: q) = _
      rw [rep2_mid '-' '0' (by decide) _ _ _ p4, rep2_none _ _ _ _ q4]; simp
    have hs : powSub (p ++ ['-', '0'] ++ q) = p ++ ['-'] ++ q := by
      unfold powSub; rw [rep2_none _ _ _ _ n1, rep2_none _ _ _ _ n2, rep2_none _ _ _ _ n3, n4]
    rw [hs, splitPm_none]
    · simp only [List.map_cons, List.map_nil, joinPm, closeBrace]
      rw [if_neg]
      rw [List.count_append, List.count_append, List.count_append, List.count_append, pb, qb]
      simp
    · exact NoPm.append (NoPm.append pp (NoPm.of_not_mem (by decide)) (by decide) (by decide)) qp hqp hqm

/-- the `Gaussian` names and formula are plain -/
example : PlainName "\\mu".toList ∧ PlainName "f(x)=A \\cdot e^{-\\frac{1}{2} (\\frac{x-\\mu}{\\sigma})^2}".toList ∧
    PlainName "A ".toList ∧ PlainName "x".toList ∧ "A ".toList.getLast? = some ' ' := by
  refine ⟨?_, ?_, ?_, ?_, by decide⟩ <;> (unfold PlainName Calm NoPair NoPm; decide)

/-! ### C176: simplified numbers -/

theorem rstrip_append (c : Char) (s : Str) (n : ℕ) (h : s.getLast? ≠ some c) : rstrip c (s ++ List.replicate n c) = s := by
  unfold rstrip
  rw [List.reverse_append, List.reverse_replicate]
  have : (List.replicate n c ++ s.reverse).dropWhile (· = c) = s.reverse := by
    induction n with
    | zero =>
      rw [List.replicate_zero, List.nil_append]
      cases hr : s.reverse with
      | nil => rfl
      | cons a r =>
        have : s.getLast? = some a := by rw [← List.head?_reverse, hr]; rfl
        have hne : a ≠ c := by intro e; rw [e] at this; exact h this
        rw [List.dropWhile_cons_of_neg (by simpa using hne)]
    | succ n ih => rw [List.replicate_succ, List.cons_append, List.dropWhile_cons_of_pos (by simp), ih]
  rw [this, List.reverse_reverse]

theorem rstrip_id (c : Char) (s : Str) (h : s.getLast? ≠ some c) : rstrip c s = s := by
  have := rstrip_append c s 0 h
  simpa using this

/-- a decimal as the shortest representation has it: digits, no zero at either end -/
def Shortest (D : Dec) : Prop := D.ds ≠ [] ∧ (∀ d ∈ D.ds, d < 10) ∧ D.ds.head? ≠ some 0 ∧ D.ds.getLast? ≠ some 0

/-- its value -/
noncomputable def Dec.val (D : Dec) : ℝ :=
  (if D.neg then -1 else 1) * ((natOf (dtext D.ds) : ℝ) * 10 ^ (D.e + 1 - D.ds.length))

/-- `_simplify_for_paper` on the text of a number -/
def simplified (D : Dec) : Str := rstrip '.' (rstrip '0' (pyRepr D))

theorem natOf_append (a b : Str) (hb : ∀ c ∈ b, c.isDigit = true) : natOf (a ++ b) = natOf a * 10 ^ b.length + natOf b := by
  unfold natOf
  rw [Nat.ofDigitChars_append]
  generalize Nat.ofDigitChars 10 a 0 = x
  induction b using List.reverseRecOn with
  | nil => simp [Nat.ofDigitChars]
  | append_singleton b c ih =>
    rw [Nat.ofDigitChars_append, Nat.ofDigitChars_append, ih (fun d hd => hb d (by simp [hd]))]
    simp only [Nat.ofDigitChars_cons, List.length_append, List.length_singleton, pow_succ]
    simp only [Nat.ofDigitChars, List.foldl_nil]
    ring

theorem natOf_zeros (n : ℕ) : natOf (List.replicate n '0') = 0 := by
  induction n with
  | zero => rfl
  | succ n ih =>
    rw [List.replicate_succ', natOf_append _ _ (by intro c hc; simp at hc; subst hc; decide), ih]
    rfl

theorem dtext_digit (ds : List ℕ) (h : ∀ d ∈ ds, d < 10) : ∀ c ∈ dtext ds, c.isDigit = true := by
  intro c hc
  obtain ⟨d, hd, rfl⟩ := List.mem_map.mp hc
  rw [Nat.isDigit_digitChar]; exact decide_eq_true (h d hd)

theorem digitChar_zero {d : ℕ} (h : d < 10) (hz : Nat.digitChar d = '0') : d = 0 := by
  interval_cases d <;> first | rfl | exact absurd hz (by decide)

theorem dtext_last (ds : List ℕ) (h : ∀ d ∈ ds, d < 10) (hl : ds.getLast? ≠ some 0) : (dtext ds).getLast? ≠ some '0' := by
  unfold dtext
  rw [List.getLast?_map]
  intro he
  cases hg : ds.getLast? with
  | none => rw [hg] at he; simp at he
  | some d =>
    rw [hg] at he
    have : d = 0 := digitChar_zero (h d (List.mem_of_getLast? hg)) (by simpa using he)
    subst this; exact hl hg

/-- reading an unsigned positional number `ip.fp` -/
theorem readDec_point (neg : Bool) (ip fp : Str) (hne : ip ≠ []) (hi : ∀ c ∈ ip, c.isDigit = true) (hf : ∀ c ∈ fp, c.isDigit = true) :
    reads ((if neg then ['-'] else []) ++ (ip ++ '.' :: fp)) = (if neg then -1 else 1) * ((natOf (ip ++ fp) : ℝ) / 10 ^ fp.length) ∧
    reads ((if neg then ['-'] else []) ++ ip) = (if neg then -1 else 1) * (natOf ip : ℝ) := by
  have hip : '.' ∉ ip := not_mem_of_digit hi (by decide)
  have hie : 'e' ∉ ip := not_mem_of_digit hi (by decide)
  have hfe : 'e' ∉ fp := not_mem_of_digit hf (by decide)
  obtain ⟨b1, b2⟩ := before_behind '.' ip fp hip
  obtain ⟨b3, b4⟩ := before_behind_none '.' ip hip
  obtain ⟨a, r, rfl⟩ : ∃ a r, ip = a :: r := by
    cases ip with
    | nil => exact absurd rfl hne
    | cons a r => exact ⟨a, r, rfl⟩
  have ha : a ≠ '-' := by intro e; have := hi a (by simp); rw [e] at this; exact absurd this (by decide)
  have hmid : 'e' ∉ (a :: r) ++ '.' :: fp := by simp only [List.mem_append, List.mem_cons, not_or] at hie ⊢; exact ⟨hie, by decide, hfe⟩
  have plain : ∀ s : Str, readDec (a :: s) = (natOf (before '.' (a :: s) ++ behind '.' (a :: s)) : ℝ) / 10 ^ (behind '.' (a :: s)).length := by
    intro s
    unfold readDec
    split
    · next heq => simp at heq; exact absurd heq.1 ha
    · rfl
  have rd1 : readDec ((a :: r) ++ '.' :: fp) = (natOf ((a :: r) ++ fp) : ℝ) / 10 ^ fp.length := by
    rw [List.cons_append, plain, ← List.cons_append, b1, b2]
  have rd2 : readDec (a :: r) = (natOf (a :: r) : ℝ) := by
    rw [plain, b3, b4]; simp
  cases neg with
  | false =>
    simp only [Bool.false_eq_true, if_false, List.nil_append]
    unfold reads
    obtain ⟨c1, c2⟩ := before_behind_none 'e' _ hmid
    obtain ⟨c3, c4⟩ := before_behind_none 'e' _ hie
    rw [c1, c2, c3, c4, rd1, rd2]
    simp [readExp, natOf, Nat.ofDigitChars]
  | true =>
    simp only [if_true, List.singleton_append]
    have m1 : 'e' ∉ '-' :: ((a :: r) ++ '.' :: fp) := by rw [List.mem_cons, not_or]; exact ⟨by decide, hmid⟩
    have m2 : 'e' ∉ '-' :: (a :: r) := by rw [List.mem_cons, not_or]; exact ⟨by decide, hie⟩
    obtain ⟨c1, c2⟩ := before_behind_none 'e' _ m1
    obtain ⟨c3, c4⟩ := before_behind_none 'e' _ m2
    unfold reads
    rw [c1, c2, c3, c4]
    have e0 : readExp [] = 0 := rfl
    have r1 : readDec ('-' :: ((a :: r) ++ '.' :: fp)) = -readDec ((a :: r) ++ '.' :: fp) := by
      rw [List.cons_append, plain]; rfl
    have r2 : readDec ('-' :: (a :: r)) = -readDec (a :: r) := by rw [plain]; rfl
    rw [r1, r2, rd1, rd2, e0]
    simp

theorem reads_exp (m E : Str) (hm : 'e' ∉ m) : reads (m ++ 'e' :: E) = reads m * 10 ^ readExp E := by
  obtain ⟨h1, h2⟩ := before_behind 'e' m E hm
  obtain ⟨h3, h4⟩ := before_behind_none 'e' m hm
  unfold reads
  rw [h1, h2, h3, h4]
  have : readExp [] = 0 := rfl
  rw [this]; simp

/-- trailing zeros of a decimal number -/
theorem toDigits_zeros (n : ℕ) (hn : n ≠ 0) : ∃ j q, n = q * 10 ^ j ∧ q % 10 ≠ 0 ∧ Nat.toDigits 10 n = Nat.toDigits 10 q ++ List.replicate j '0' ∧
    (Nat.toDigits 10 q).getLast? ≠ some '0' := by
  induction n using Nat.strong_induction_on with
  | _ n ih =>
    by_cases h0 : n % 10 = 0
    · have hge : 10 ≤ n := by omega
      obtain ⟨j, q, h1, h2, h3, h4⟩ := ih (n / 10) (by omega) (by omega)
      refine ⟨j + 1, q, ?_, h2, ?_, h4⟩
      · have hd : n = n / 10 * 10 := by omega
        rw [pow_succ, ← mul_assoc, ← h1]; exact hd
      · rw [Nat.toDigits_of_base_le (by norm_num) hge, h3, h0, List.replicate_succ', List.append_assoc]
        rfl
    · refine ⟨0, n, by simp, h0, by simp, ?_⟩
      have hlast : (Nat.toDigits 10 n).getLast? = some (Nat.digitChar (n % 10)) := by
        by_cases hlt : n < 10
        · rw [Nat.toDigits_of_lt_base hlt, Nat.mod_eq_of_lt hlt]; rfl
        · rw [Nat.toDigits_of_base_le (by norm_num) (by omega)]; simp
      rw [hlast]
      intro he
      exact h0 (digitChar_zero (Nat.mod_lt _ (by norm_num)) (by simpa using he))

theorem dtext_append (a b : List ℕ) : dtext (a ++ b) = dtext a ++ dtext b := List.map_append

theorem dtext_length (a : List ℕ) : (dtext a).length = a.length := List.length_map _

theorem last_of_append (a b : Str) (hb : b ≠ []) : (a ++ b).getLast? = b.getLast? := by
  rw [List.getLast?_append]
  cases h : b.getLast? with
  | none => rw [List.getLast?_eq_none_iff] at h; exact absurd h hb
  | some c => rfl

theorem not_dot_of_digit {s : Str} (h : ∀ c ∈ s, c.isDigit = true) : s.getLast? ≠ some '.' := by
  intro he; have := h _ (List.mem_of_getLast? he); exact absurd this (by decide)

/-- C176: numbers written positionally (`10⁻⁴ ≤ |x| < 10¹⁶`) keep their value when trailing zeros and the point are dropped, and the
text has neither at its end unless it is an integer -/
theorem C176_decimal (D : Dec) (h : Shortest D) (he : -4 ≤ D.e) (he' : D.e < 16) : reads (simplified D) = D.val := by
  obtain ⟨hne, hlt, hh, hl⟩ := h
  have hdig := dtext_digit D.ds hlt
  have hlast := dtext_last D.ds hlt hl
  have hdne : dtext D.ds ≠ [] := by unfold dtext; simpa using hne
  unfold simplified pyRepr Dec.val
  rw [if_neg (show ¬ (D.e < -4 ∨ 16 ≤ D.e) by omega)]
  by_cases hneg : D.e < 0
  · rw [if_pos hneg]
    have hz : ∀ c ∈ List.replicate ((-D.e).toNat - 1) '0' ++ dtext D.ds, c.isDigit = true := by
      intro c hc
      rcases List.mem_append.mp hc with hc | hc
      · rw [List.eq_of_mem_replicate hc]; decide
      · exact hdig c hc
    have hlz : ∀ c, ((if D.neg then ['-'] else []) ++ '0' :: '.' :: (List.replicate ((-D.e).toNat - 1) '0' ++ dtext D.ds)).getLast? = some c ↔
        (dtext D.ds).getLast? = some c := by
      intro c
      rw [last_of_append _ _ (by simp), show '0' :: '.' :: (List.replicate ((-D.e).toNat - 1) '0' ++ dtext D.ds) =
        ('0' :: '.' :: List.replicate ((-D.e).toNat - 1) '0') ++ dtext D.ds by simp, last_of_append _ _ hdne]
    rw [rstrip_id '0' _ (fun h => hlast ((hlz _).mp h)), rstrip_id '.' _ (fun h => not_dot_of_digit hdig ((hlz _).mp h))]
    have := (readDec_point D.neg ['0'] (List.replicate ((-D.e).toNat - 1) '0' ++ dtext D.ds) (by simp) (by simp) hz).1
    simp only [List.cons_append, List.nil_append] at this
    rw [this]
    congr 1
    have hv : natOf ('0' :: (List.replicate ((-D.e).toNat - 1) '0' ++ dtext D.ds)) = natOf (dtext D.ds) := by
      rw [← List.cons_append, ← List.replicate_succ, natOf_append _ _ hdig, natOf_zeros]; simp
    rw [hv, List.length_append, List.length_replicate, dtext_length, div_eq_mul_inv]
    congr 1
    rw [← zpow_natCast, ← zpow_neg]
    congr 1
    push_cast
    omega
  · rw [if_neg hneg]
    by_cases hle : D.ds.length ≤ D.e.toNat + 1
    · rw [if_pos hle]
      have hz : ∀ c ∈ dtext D.ds ++ List.replicate (D.e.toNat + 1 - D.ds.length) '0', c.isDigit = true := by
        intro c hc
        rcases List.mem_append.mp hc with hc | hc
        · exact hdig c hc
        · rw [List.eq_of_mem_replicate hc]; decide
      have hnez : dtext D.ds ++ List.replicate (D.e.toNat + 1 - D.ds.length) '0' ≠ [] := by simp [hdne]
      have e1 : (if D.neg then ['-'] else []) ++ (dtext D.ds ++ List.replicate (D.e.toNat + 1 - D.ds.length) '0' ++ ['.', '0']) =
          ((if D.neg then ['-'] else []) ++ (dtext D.ds ++ List.replicate (D.e.toNat + 1 - D.ds.length) '0') ++ ['.']) ++ List.replicate 1 '0' := by
        simp
      have e2 : (if D.neg then ['-'] else []) ++ (dtext D.ds ++ List.replicate (D.e.toNat + 1 - D.ds.length) '0') ++ ['.'] =
          ((if D.neg then ['-'] else []) ++ (dtext D.ds ++ List.replicate (D.e.toNat + 1 - D.ds.length) '0')) ++ List.replicate 1 '.' := by
        simp
      rw [e1, rstrip_append '0' _ 1 (by rw [List.getLast?_append]; simp), e2, rstrip_append '.' _ 1]
      · rw [(readDec_point D.neg _ [] hnez hz (by simp)).2]
        congr 1
        rw [natOf_append _ _ (by intro c hc; rw [List.eq_of_mem_replicate hc]; decide), natOf_zeros, List.length_replicate]
        push_cast
        rw [add_zero, ← zpow_natCast]
        congr 2
        push_cast [hle]
        omega
      · rw [last_of_append _ _ hnez]; exact not_dot_of_digit hz
    · rw [if_neg hle]
      have hd1 : ∀ c ∈ dtext (D.ds.take (D.e.toNat + 1)), c.isDigit = true := dtext_digit _ (fun d hd => hlt d (List.mem_of_mem_take hd))
      have hd2 : ∀ c ∈ dtext (D.ds.drop (D.e.toNat + 1)), c.isDigit = true := dtext_digit _ (fun d hd => hlt d (List.mem_of_mem_drop hd))
      have hn1 : dtext (D.ds.take (D.e.toNat + 1)) ≠ [] := by
        intro hc
        have := congrArg List.length hc
        rw [dtext_length, List.length_take] at this
        simp only [List.length_nil] at this
        omega
      have hn2 : dtext (D.ds.drop (D.e.toNat + 1)) ≠ [] := by
        intro hc
        have := congrArg List.length hc
        rw [dtext_length, List.length_drop] at this
        simp only [List.length_nil] at this
        omega
      have hsplit : dtext (D.ds.take (D.e.toNat + 1)) ++ dtext (D.ds.drop (D.e.toNat + 1)) = dtext D.ds := by
        rw [← dtext_append, List.take_append_drop]
      have hlz : ((if D.neg then ['-'] else []) ++ (dtext (D.ds.take (D.e.toNat + 1)) ++ '.' :: dtext (D.ds.drop (D.e.toNat + 1)))).getLast? =
          (dtext D.ds).getLast? := by
        rw [last_of_append _ _ (by simp), show dtext (D.ds.take (D.e.toNat + 1)) ++ '.' :: dtext (D.ds.drop (D.e.toNat + 1)) =
          (dtext (D.ds.take (D.e.toNat + 1)) ++ ['.']) ++ dtext (D.ds.drop (D.e.toNat + 1)) by simp, last_of_append _ _ hn2, ← hsplit,
          last_of_append _ _ hn2]
      rw [rstrip_id '0' _ (by rw [hlz]; exact hlast), rstrip_id '.' _ (by rw [hlz]; exact not_dot_of_digit hdig),
        (readDec_point D.neg _ _ hn1 hd1 hd2).1, hsplit, dtext_length, List.length_drop, div_eq_mul_inv]
      congr 2
      rw [← zpow_natCast, ← zpow_neg]
      congr 1
      push_cast [not_le.mp hle |>.le]
      omega

/-- the mantissa of the exponent notation -/
def expMant (ds : List ℕ) : Str :=
  match ds with
  | [] => ['0']
  | [a] => [Nat.digitChar a]
  | a :: r => Nat.digitChar a :: '.' :: dtext r

theorem pyRepr_exp (D : Dec) (he : D.e < -4 ∨ 16 ≤ D.e) : pyRepr D = ((if D.neg then ['-'] else []) ++ expMant D.ds) ++ 'e' :: expText D.e := by
  unfold pyRepr
  rw [if_pos he, List.append_assoc]
  rfl

theorem reads_expMant (neg : Bool) (ds : List ℕ) (hne : ds ≠ []) (hlt : ∀ d ∈ ds, d < 10) :
    reads ((if neg then ['-'] else []) ++ expMant ds) = (if neg then -1 else 1) * ((natOf (dtext ds) : ℝ) * 10 ^ (1 - (ds.length : ℤ))) ∧
    'e' ∉ (if neg then ['-'] else []) ++ expMant ds := by
  have hdig := dtext_digit ds hlt
  have hs : 'e' ∉ (if neg then ['-'] else [] : Str) := by cases neg <;> decide
  match ds, hne, hlt, hdig with
  | [a], _, hlt, hdig =>
    constructor
    · have := (readDec_point neg (dtext [a]) [] (by simp [dtext]) hdig (by simp)).2
      simpa [expMant, dtext] using this
    · simp only [List.mem_append, not_or]
      exact ⟨hs, not_mem_of_digit hdig (by decide)⟩
  | a :: b :: r, _, hlt, hdig =>
    have h1 : ∀ c ∈ dtext [a], c.isDigit = true := dtext_digit _ (fun d hd => hlt d (by simp at hd; simp [hd]))
    have h2 : ∀ c ∈ dtext (b :: r), c.isDigit = true := dtext_digit _ (fun d hd => hlt d (List.mem_cons_of_mem _ hd))
    constructor
    · have := (readDec_point neg (dtext [a]) (dtext (b :: r)) (by simp [dtext]) h1 h2).1
      rw [← dtext_append] at this
      show reads ((if neg then ['-'] else []) ++ (dtext [a] ++ '.' :: dtext (b :: r))) = _
      have hz : ((10 : ℝ) ^ (b :: r).length)⁻¹ = 10 ^ (1 - ((a :: b :: r).length : ℤ)) := by
        rw [← zpow_natCast, ← zpow_neg]
        congr 1
      rw [this, dtext_length, List.singleton_append, div_eq_mul_inv, hz]
    · have hm : 'e' ∉ dtext [a] ++ '.' :: dtext (b :: r) := by
        simp only [List.mem_append, List.mem_cons, not_or]
        exact ⟨not_mem_of_digit h1 (by decide), by decide, not_mem_of_digit h2 (by decide)⟩
      show 'e' ∉ (if neg then ['-'] else []) ++ (dtext [a] ++ '.' :: dtext (b :: r))
      simp only [List.mem_append (s := if neg then ['-'] else []), not_or] at hm ⊢
      exact ⟨hs, by simpa using hm⟩

/-- C176 (violated expectation): in exponent notation (`|x| < 10⁻⁴` or `|x| ≥ 10¹⁶`) the stripping also removes zeros of the exponent:
the value is kept exactly when the exponent is not a multiple of ten; otherwise the shown exponent is at most a tenth of the true one. -/
theorem C176_exponent (D : Dec) (h : Shortest D) (he : D.e < -4 ∨ 16 ≤ D.e) :
    ∃ e', reads (simplified D) = D.val * 10 ^ (e' - D.e) ∧ (¬ (10 ∣ D.e) → e' = D.e) ∧ (10 ∣ D.e → 10 * |e'| ≤ |D.e|) := by
  obtain ⟨hne, hlt, hh, hl⟩ := h
  obtain ⟨r1, r2⟩ := reads_expMant D.neg D.ds hne hlt
  obtain ⟨j, q, z1, z2, z3, z4⟩ := toDigits_zeros D.e.natAbs (by omega)
  have hq : q ≠ 0 := by intro h; rw [h] at z2; simp at z2
  unfold simplified
  rw [pyRepr_exp D he]
  generalize (if D.neg then ['-'] else []) ++ expMant D.ds = M at r1 r2
  have hqne : Nat.toDigits 10 q ≠ [] := Nat.toDigits_ne_nil
  -- the exponent text is a head, the digits of `q` and zeros
  obtain ⟨pad, hpad, hpd⟩ : ∃ pad : Str, expText D.e = (if D.e < 0 then '-' else '+') :: (pad ++ Nat.toDigits 10 q) ++ List.replicate j '0' ∧ (pad = [] ∨ pad = ['0']) := by
    unfold expText
    by_cases h10 : D.e.natAbs < 10
    · exact ⟨['0'], by rw [if_pos h10, z3]; simp, Or.inr rfl⟩
    · exact ⟨[], by rw [if_neg h10, z3]; simp, Or.inl rfl⟩
  have hlast : (M ++ 'e' :: ((if D.e < 0 then '-' else '+') :: (pad ++ Nat.toDigits 10 q))).getLast? = (Nat.toDigits 10 q).getLast? := by
    rw [show M ++ 'e' :: ((if D.e < 0 then '-' else '+') :: (pad ++ Nat.toDigits 10 q)) =
      (M ++ 'e' :: ((if D.e < 0 then '-' else '+') :: pad)) ++ Nat.toDigits 10 q by simp, last_of_append _ _ hqne]
  rw [hpad, show M ++ 'e' :: ((if D.e < 0 then '-' else '+') :: (pad ++ Nat.toDigits 10 q) ++ List.replicate j '0') =
    (M ++ 'e' :: ((if D.e < 0 then '-' else '+') :: (pad ++ Nat.toDigits 10 q))) ++ List.replicate j '0' by simp,
    rstrip_append '0' _ j (by rw [hlast]; exact z4), rstrip_id '.' _ (by rw [hlast]; exact not_dot_of_digit (toDigits_digit q)),
    reads_exp _ _ r2, r1]
  have hpq : natOf (pad ++ Nat.toDigits 10 q) = q := by
    rw [natOf_append _ _ (toDigits_digit q), toDigits_val]
    rcases hpd with rfl | rfl <;> simp [natOf, Nat.ofDigitChars]
  refine ⟨if D.e < 0 then -(q : ℤ) else q, ?_, ?_, ?_⟩
  · have hE : readExp ((if D.e < 0 then '-' else '+') :: (pad ++ Nat.toDigits 10 q)) = if D.e < 0 then -(q : ℤ) else q := by
      by_cases hn : D.e < 0
      · rw [if_pos hn, if_pos hn]; simp only [readExp, hpq]
      · rw [if_neg hn, if_neg hn]; simp only [readExp, hpq]
    rw [hE]
    unfold Dec.val
    generalize (if D.e < 0 then -(q : ℤ) else q) = e'
    rw [mul_assoc, mul_assoc, mul_assoc, mul_assoc, ← zpow_add₀ (by norm_num), ← zpow_add₀ (by norm_num)]
    congr 3; ring
  · intro hnd
    have hj : j = 0 := by
      by_contra hj
      apply hnd
      obtain ⟨k, rfl⟩ : ∃ k, j = k + 1 := ⟨j - 1, by omega⟩
      rw [← Int.dvd_natAbs, z1]
      exact_mod_cast Dvd.dvd.mul_left (dvd_pow_self 10 (by omega)) q
    subst hj
    rw [pow_zero, mul_one] at z1
    split_ifs <;> omega
  · intro hd
    have hj : j ≠ 0 := by
      intro hj; subst hj
      rw [pow_zero, mul_one] at z1
      omega
    obtain ⟨k, rfl⟩ : ∃ k, j = k + 1 := ⟨j - 1, by omega⟩
    have h10 : 10 * q ≤ D.e.natAbs := by
      rw [z1, pow_succ]
      calc 10 * q = q * (1 * 10) := by ring
        _ ≤ q * (10 ^ k * 10) := Nat.mul_le_mul_left _ (Nat.mul_le_mul_right _ (Nat.one_le_pow _ _ (by norm_num)))
    have ha : |(if D.e < 0 then -(q : ℤ) else q)| = q := by split_ifs <;> simp
    rw [ha, Int.abs_eq_natAbs]
    exact_mod_cast h10

/-- the value is lost exactly at exponents that are multiples of ten in exponent notation -/
theorem C176_value_lost (D : Dec) (h : Shortest D) (hv : D.val ≠ 0) :
    reads (simplified D) = D.val ↔ ¬ ((D.e < -4 ∨ 16 ≤ D.e) ∧ 10 ∣ D.e) := by
  by_cases he : D.e < -4 ∨ 16 ≤ D.e
  · obtain ⟨e', h1, h2, h3⟩ := C176_exponent D h he
    rw [h1]
    constructor
    · rintro hh ⟨-, hd⟩
      have : (10 : ℝ) ^ (e' - D.e) = 1 := by
        have := mul_left_cancel₀ hv (hh.trans (mul_one _).symm)
        exact this
      have h0 : e' - D.e = 0 := (zpow_eq_one_iff_right₀ (by norm_num) (by norm_num)).mp this
      have := h3 hd
      rw [show e' = D.e by omega] at this
      have : |D.e| = 0 := by have := abs_nonneg D.e; omega
      rw [abs_eq_zero] at this
      omega
    · intro hn
      rw [h2 (fun hd => hn ⟨he, hd⟩)]; simp
  · rw [not_or, not_lt, not_le] at he
    exact iff_of_true (C176_decimal D h he.1 he.2) (fun hh => by rcases hh.1 with h | h <;> omega)

/-- `1e-10` is shown as `1e-1` -/
example : Shortest ⟨false, [1], -10⟩ ∧ pyRepr ⟨false, [1], -10⟩ = "1e-10".toList ∧ simplified ⟨false, [1], -10⟩ = "1e-1".toList ∧
    simplified ⟨true, [1, 2, 5], 2⟩ = "-125".toList ∧ simplified ⟨false, [3, 1, 4], 0⟩ = "3.14".toList ∧
    simplified ⟨false, [1, 5], 20⟩ = "1.5e+2".toList := by
  refine ⟨⟨by decide, by decide, by decide, by decide⟩, by decide, by decide, by decide, by decide, by decide⟩

theorem filter_of_not_mem (c : Char) (s : Str) (h : c ∉ s) : s.filter (· ≠ c) = s := by
  rw [List.filter_eq_self]; intro a ha; simp; rintro rfl; exact h ha

theorem stripDollar_of (s : Str) (h1 : s.head? ≠ some '$') (h2 : s.getLast? ≠ some '$') : stripDollar s = s := by
  unfold stripDollar
  have a : s.dropWhile (· = '$') = s := by
    cases s with
    | nil => rfl
    | cons c s => rw [List.dropWhile_cons_of_neg]; simpa using h1
  rw [a]
  have b : s.reverse.dropWhile (· = '$') = s.reverse := by
    cases hr : s.reverse with
    | nil => rfl
    | cons c r =>
      rw [List.dropWhile_cons_of_neg]
      have : s.getLast? = some c := by rw [← List.head?_reverse, hr]; rfl
      intro hc
      simp at hc
      exact h2 (by rw [this, hc])
  rw [b, List.reverse_reverse]

/-- C176: a line `k = t` whose right side is a number is rewritten to `k = ` and the stripped `str(float(t))`; a line whose right side
is not a number, and a line without `=`, is kept -/
theorem C176_line (f : Str → Option Str) (k t : Str) (hk : k ≠ []) (hks : ' ' ∉ k ∧ '=' ∉ k ∧ '$' ∉ k) (ht : ' ' ∉ t ∧ '=' ∉ t ∧ '$' ∉ t) :
    (∀ r, f t = some r → simplifyLine f (k ++ " = ".toList ++ t) = k ++ " = ".toList ++ rstrip '.' (rstrip '0' r)) ∧
    (f t = none → simplifyLine f (k ++ " = ".toList ++ t) = k ++ " = ".toList ++ t) ∧
    simplifyLine f k = k := by
  have eqs : " = ".toList = [' ', '=', ' '] := by decide
  rw [eqs]
  have hsd : stripDollar (k ++ [' ', '=', ' '] ++ t) = k ++ [' ', '=', ' '] ++ t := by
    apply stripDollar_of
    · cases k with
      | nil => exact absurd rfl hk
      | cons c k => intro h; simp at h; exact hks.2.2 (by simp [h])
    · intro h
      have := List.mem_of_getLast? h
      simp only [List.mem_append] at this
      rcases this with (h | h) | h
      · exact hks.2.2 h
      · exact absurd h (by decide)
      · exact ht.2.2 h
  have hfil : (k ++ [' ', '=', ' '] ++ t).filter (· ≠ ' ') = k ++ '=' :: t := by
    rw [List.filter_append, List.filter_append, filter_of_not_mem _ _ hks.1, filter_of_not_mem _ _ ht.1]
    simp
  have hsp : Chars.split '=' (k ++ '=' :: t) = [k, t] := by
    rw [Chars.split_append _ _ _ hks.2.1, Chars.split_of_not_mem _ _ ht.2.1]
  refine ⟨fun r hr => ?_, fun hn => ?_, ?_⟩
  · unfold simplifyLine
    simp only [hsd, hfil, hsp, hr]
  · unfold simplifyLine
    simp only [hsd, hfil, hsp, hn]
  · have h1 : stripDollar k = k := stripDollar_of k
      (fun h => hks.2.2 (List.mem_of_mem_head? h)) (fun h => hks.2.2 (List.mem_of_getLast? h))
    unfold simplifyLine
    simp only [h1, filter_of_not_mem _ _ hks.1, Chars.split_of_not_mem _ _ hks.2.1]

/-- C176 (whole path): the line of a parameter whose number has the shortest decimal `D` shows a number equal to it, unless it is in
exponent notation with an exponent divisible by ten -/
theorem C176_parameter (f : Str → Option Str) (k t : Str) (hk : k ≠ []) (hks : ' ' ∉ k ∧ '=' ∉ k ∧ '$' ∉ k)
    (ht : ' ' ∉ t ∧ '=' ∉ t ∧ '$' ∉ t) (D : Dec) (hD : Shortest D) (hv : D.val ≠ 0) (hf : f t = some (pyRepr D)) :
    ∃ n, simplifyLine f (k ++ " = ".toList ++ t) = k ++ " = ".toList ++ n ∧
      (reads n = D.val ↔ ¬ ((D.e < -4 ∨ 16 ≤ D.e) ∧ 10 ∣ D.e)) :=
  ⟨_, (C176_line f k t hk hks ht).1 _ hf, C176_value_lost D hD hv⟩

/-! ### C177: translated names -/

/-- "the table names its rows": every row's key occurs in the text -/
def NamesRows (table : List String → Str) : Prop := ∀ ks k, k ∈ ks → k.toList <:+: table ks

/-- C177: naming parameters is accepted exactly when every name is an optimised parameter and occurs in the text of the initial-guess
table; otherwise `ValueError` and the names are unchanged. Without a guess only the parameters count. -/
theorem C177_set (table : List String → Str) (s : Names) (g : Option Str) (hg : guessInfo table s = .ok g) (kw : List (String × String)) :
    ((∀ p ∈ kw, p.1 ∈ s.popt ∧ ∀ t, g = some t → p.1.toList <:+: t) →
      setArgnames table s kw = ({ s with trans := some kw }, .ok ())) ∧
    (¬ (∀ p ∈ kw, p.1 ∈ s.popt ∧ ∀ t, g = some t → p.1.toList <:+: t) → setArgnames table s kw = (s, .error .valueError)) := by
  have hiff : (∀ p ∈ kw, p.1 ∈ s.popt ∧ (∀ t ∈ g, p.1.toList <:+: t)) ↔ (∀ p ∈ kw, p.1 ∈ s.popt ∧ ∀ t, g = some t → p.1.toList <:+: t) := by
    simp only [Option.mem_def]
  unfold setArgnames
  rw [hg]
  constructor
  · intro h; simp only []; rw [if_pos (hiff.mpr h)]
  · intro h; simp only []; rw [if_neg (fun h' => h (hiff.mp h'))]

/-- C177: on a fresh annotation, any names of parameters that the guess has are accepted -/
theorem C177_first (table : List String → Str) (ht : NamesRows table) (popt ks : List String) (kw : List (String × String))
    (h : ∀ p ∈ kw, p.1 ∈ popt ∧ p.1 ∈ ks) :
    setArgnames table ⟨popt, some ks, none⟩ kw = (⟨popt, some ks, some kw⟩, .ok ()) := by
  refine (C177_set table ⟨popt, some ks, none⟩ (some (table ks)) rfl kw).1 ?_
  intro p hp
  refine ⟨(h p hp).1, ?_⟩
  intro t ht'
  rw [← Option.some.inj ht']
  exact ht ks p.1 (h p hp).2

/-- C177 (violated expectation): names cannot be set again: with a guess, repeating the call that just succeeded raises `ValueError`
as soon as one of the original names no longer occurs anywhere in the table's text -/
theorem C177_not_repeatable (table : List String → Str) (popt ks : List String) (kw : List (String × String)) (d : Dict Unit)
    (htr : translate (ks.map (fun k => (k, ()))) kw = .ok d) (p : String × String) (hp : p ∈ kw)
    (hgone : ¬ p.1.toList <:+: table (d.map Prod.fst)) :
    setArgnames table ⟨popt, some ks, some kw⟩ kw = (⟨popt, some ks, some kw⟩, .error .valueError) := by
  have hg : guessInfo table ⟨popt, some ks, some kw⟩ = .ok (some (table (d.map Prod.fst))) := by
    unfold guessInfo; simp only []; rw [htr]
  refine (C177_set table ⟨popt, some ks, some kw⟩ _ hg kw).2 ?_
  intro h
  exact hgone ((h p hp).2 _ rfl)

/-- a table that lists the keys between dollars, one per line -/
def toyTable (ks : List String) : Str := ks.flatMap (fun k => '$' :: (k.toList ++ ['$', '\n']))

theorem toyTable_names : NamesRows toyTable := by
  intro ks k hk
  obtain ⟨a, b, rfl⟩ := List.append_of_mem hk
  unfold toyTable
  refine ⟨a.flatMap (fun k => '$' :: (k.toList ++ ['$', '\n'])) ++ ['$'], ['$', '\n'] ++ b.flatMap (fun k => '$' :: (k.toList ++ ['$', '\n'])), ?_⟩
  simp

/-- the second naming of a `Gaussian` parameter as `m` fails, the first succeeds -/
example : setArgnames toyTable ⟨["sigma", "A"], some ["sigma", "A"], none⟩ [("sigma", "s")] =
      (⟨["sigma", "A"], some ["sigma", "A"], some [("sigma", "s")]⟩, .ok ()) ∧
    setArgnames toyTable ⟨["sigma", "A"], some ["sigma", "A"], some [("sigma", "s")]⟩ [("sigma", "s")] =
      (⟨["sigma", "A"], some ["sigma", "A"], some [("sigma", "s")]⟩, .error .valueError) := by
  refine ⟨C177_first _ toyTable_names _ _ _ (by simp), ?_⟩
  refine C177_not_repeatable _ _ _ _ [("A", ()), ("s", ())] (by decide) ("sigma", "s") (by simp) ?_
  decide

end Tex
end SW
