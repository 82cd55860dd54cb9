import Verif.Contours
import Verif.Props.FFDraw
import Mathlib.Tactic.Linarith
import Mathlib.Tactic.Positivity
import Mathlib.Tactic.FieldSimp
import Mathlib.Tactic.Ring
import Mathlib.Data.List.TakeWhile

/-!
# C266, C267, C268: contour plots
-/

namespace SW
namespace Contour

open Draw (Kw Val pop pop_eq without without_without lookup_without)

/-! ### Specification -/

/-- `l` is strictly increasing, as matplotlib requires of levels -/
def Incr (l : List ℝ) : Prop := l.Pairwise (· < ·)

/-- `v` is a level, and with `skip` not the highest one -/
def Wanted (skip : Bool) (l : List ℝ) (v : ℝ) : Prop := v ∈ l ∧ (skip = true → ∃ w ∈ l, v < w)

/-! ### C266 -/

theorem dropLast_iff {l : List ℝ} (h : Incr l) (v : ℝ) : v ∈ l.dropLast ↔ v ∈ l ∧ ∃ w ∈ l, v < w := by
  rcases List.eq_nil_or_concat l with rfl | ⟨t, m, rfl⟩
  · simp
  · rw [List.concat_eq_append] at h ⊢
    rw [List.dropLast_concat]
    unfold Incr at h
    rw [List.pairwise_append] at h
    obtain ⟨-, -, h3⟩ := h
    constructor
    · intro hv
      exact ⟨List.mem_append_left _ hv, m, by simp, h3 v hv m (by simp)⟩
    · rintro ⟨hv, w, hw, hlt⟩
      rcases List.mem_append.mp hv with h | h
      · exact h
      · rw [List.mem_singleton] at h
        subst h
        rcases List.mem_append.mp hw with h | h
        · exact absurd (h3 w h v (by simp)) (not_lt.mpr hlt.le)
        · rw [List.mem_singleton] at h
          subst h
          exact absurd hlt (lt_irrefl _)

theorem labelled_iff {l : List ℝ} (h : Incr l) (skip : Bool) (v : ℝ) :
    v ∈ labelled l (labelArg skip (some l)) ↔ Wanted skip l v := by
  unfold labelled labelArg Wanted
  simp only [Option.map_some, List.mem_filter, decide_eq_true_eq]
  cases skip
  · simp
  · simp only [if_true, dropLast_iff h]
    tauto

/-- with levels given, or defaults of the normalisation: those are drawn, and exactly they are labelled, except for the highest if asked for -/
theorem C266_labels (axnorm : Option String) (norm : Option (Option String)) (levels : Option (List ℝ)) (l auto : List ℝ) (skip : Bool) (ckw : Kw)
    (hl : Hist.contourLevels axnorm levels = .ok (some l)) (hi : Incr l) :
    ∃ p, hist2d axnorm norm levels auto true skip ckw = .ok p ∧ p.drawn = l ∧ ∀ v, v ∈ p.labels ↔ Wanted skip l v := by
  refine ⟨_, by simp only [hist2d, hl]; rfl, rfl, fun v => ?_⟩
  simp only [if_true, Option.getD_some]
  exact labelled_iff hi skip v

/-- the same for the adaptive mesh -/
theorem C266_labels_spiral (norm : Option String) (l auto : List ℝ) (skip : Bool) (ckw : Kw) (hi : Incr l) :
    (spiral norm (some l) auto true skip ckw).drawn = l ∧ ∀ v, v ∈ (spiral norm (some l) auto true skip ckw).labels ↔ Wanted skip l v := by
  refine ⟨rfl, fun v => ?_⟩
  simp only [spiral, Option.getD_some, true_and]
  by_cases hn : l = []
  · subst hn
    simp [Wanted]
  · rw [if_pos hn]
    exact labelled_iff hi skip v

/-- violated: with matplotlib's own levels `skip_max_clbl` is ignored: all levels are labelled, the highest too -/
theorem C266_auto (axnorm : Option String) (norm : Option (Option String)) (auto : List ℝ) (skip : Bool) (ckw : Kw)
    (ha : axnorm = none ∨ axnorm = some "cd" ∨ axnorm = some "rd") :
    ∃ p, hist2d axnorm norm none auto true skip ckw = .ok p ∧ p.drawn = auto ∧ p.labels = auto := by
  rcases ha with rfl | rfl | rfl
  · exact ⟨_, by simp only [hist2d, Hist.contourLevels]; rfl, rfl, rfl⟩
  · exact ⟨_, by simp only [hist2d, Hist.contourLevels]; rfl, rfl, rfl⟩
  · exact ⟨_, by simp only [hist2d, Hist.contourLevels]; rfl, rfl, rfl⟩

theorem C266_auto_spiral (norm : Option String) (auto : List ℝ) (skip : Bool) (ckw : Kw) :
    (spiral norm none auto true skip ckw).drawn = auto ∧ (spiral norm none auto true skip ckw).labels = auto := by
  refine ⟨rfl, ?_⟩
  simp only [spiral, Option.getD_none, labelArg, Option.map_none, labelled, true_and]
  split
  · rfl
  · rename_i h; push Not at h; exact h.symm

/-- no labels unless asked for -/
theorem C266_off (axnorm : Option String) (norm : Option (Option String)) (levels : Option (List ℝ)) (auto : List ℝ) (skip : Bool) (ckw : Kw) (p : Plot)
    (h : hist2d axnorm norm levels auto false skip ckw = .ok p) : p.labels = [] := by
  unfold hist2d at h
  split at h
  · cases h
  · cases h; rfl

theorem C266_off_spiral (norm : Option String) (levels : Option (List ℝ)) (auto : List ℝ) (skip : Bool) (ckw : Kw) :
    (spiral norm levels auto false skip ckw).labels = [] := by
  simp [spiral]

/-- the colours: the caller's norm; else, normalised by rows or columns, steps of 0.1; else steps at the levels if there are two, matplotlib's otherwise -/
theorem C266_norm (axnorm : Option String) (norm : Option (Option String)) (levels : Option (List ℝ)) (lv : Option (List ℝ)) (auto : List ℝ) (lab skip : Bool) (ckw : Kw)
    (hl : Hist.contourLevels axnorm levels = .ok lv) :
    ∃ p, hist2d axnorm norm levels auto lab skip ckw = .ok p ∧
      (∀ n, norm = some (some n) → p.norm = .own n) ∧
      (norm = none → axnorm = some "c" ∨ axnorm = some "r" → p.norm = .tenths) ∧
      (norm = some none ∨ norm = none ∧ ¬ (axnorm = some "c" ∨ axnorm = some "r") →
        (∀ l, lv = some l → 2 ≤ l.length → p.norm = .steps l) ∧ ((∀ l, lv = some l → l.length < 2) → p.norm = .auto)) := by
  refine ⟨_, by simp only [hist2d, hl]; rfl, ?_, ?_, ?_⟩
  · rintro n rfl; rfl
  · rintro rfl h
    simp only [firstNorm, if_pos h, lateNorm]
  · intro h
    have hf : firstNorm axnorm norm = .auto := by
      rcases h with rfl | ⟨rfl, h⟩
      · rfl
      · simp only [firstNorm, if_neg h]
    simp only [hf]
    refine ⟨?_, fun h => ?_⟩
    · rintro l rfl h2
      simp only [lateNorm, if_pos h2]
    · cases lv with
      | none => rfl
      | some l => simp only [lateNorm, if_neg (not_le.mpr (h l rfl))]

/-- the options of the labels are the caller's, or the defaults, and every other option is handed on -/
theorem C266_opts (d : Kw) :
    (labelOpts d).1 = ((d.lookup "inline").getD (some "True"), (d.lookup "inline_spacing").getD (some "-3"), (d.lookup "fmt").getD (some "%s")) ∧
    ∀ k, (labelOpts d).2.lookup k = if k ∈ ["inline", "inline_spacing", "fmt"] then none else d.lookup k := by
  simp only [labelOpts, pop_eq, without_without, List.cons_append, List.nil_append, lookup_without]
  simp

/-- violated: a second plot with the same dictionary ignores them -/
theorem C266_consumed (d : Kw) : (labelOpts (labelOpts d).2).1 = (some "True", some "-3", some "%s") := by
  rw [(C266_opts _).1]
  simp only [(C266_opts d).2]
  simp

/-- both plots use these options -/
theorem C266_used (axnorm : Option String) (norm : Option (Option String)) (levels : Option (List ℝ)) (auto : List ℝ) (lab skip : Bool) (ckw : Kw) (p : Plot)
    (h : hist2d axnorm norm levels auto lab skip ckw = .ok p) (n : Option String) :
    p.opts = labelOpts ckw ∧ (spiral n levels auto lab skip ckw).opts = labelOpts ckw := by
  unfold hist2d at h
  split at h
  · cases h
  · cases h; exact ⟨rfl, rfl⟩

/-! ### C267 -/

/-- decimal digits -/
def Digits (s : List Char) : Prop := ∀ c ∈ s, '0' ≤ c ∧ c ≤ '9'
/-- the number a string of digits stands for -/
def num (s : List Char) : ℕ := s.foldl (fun n c => 10 * n + (c.toNat - 48)) 0
/-- `digits.digits` -/
def mantissa (m : List Char) : ℚ :=
  (num (m.takeWhile (· ≠ '.')) : ℚ) + num (m.dropWhile (· ≠ '.')).tail / 10 ^ (m.dropWhile (· ≠ '.')).tail.length
/-- the exponent with its sign, 0 if there is none -/
def expo : List Char → ℤ
  | '-' :: x => -(num x : ℤ)
  | '+' :: x => num x
  | x => num x
/-- the (unsigned) number a reader sees in `mantissa` or `mantissa e±exponent` -/
def reading (s : List Char) : ℚ := mantissa (s.takeWhile (· ≠ 'e')) * (10 : ℚ) ^ expo (s.dropWhile (· ≠ 'e')).tail

theorem num_append (a b : List Char) : num (a ++ b) = num a * 10 ^ b.length + num b := by
  have key : ∀ (b : List Char) (n : ℕ), b.foldl (fun n c => 10 * n + (c.toNat - 48)) n = n * 10 ^ b.length + num b := by
    intro b
    induction b with
    | nil => intro n; simp [num]
    | cons c b ih =>
      intro n
      rw [List.foldl_cons, ih]
      unfold num
      rw [List.foldl_cons, ih (10 * 0 + (c.toNat - 48))]
      simp only [List.length_cons, pow_succ]
      unfold num
      ring
  unfold num
  rw [List.foldl_append, key]
  rfl

theorem num_zeros (k : ℕ) : num (List.replicate k '0') = 0 := by
  induction k with
  | zero => rfl
  | succ k ih => rw [List.replicate_succ', num_append, ih]; simp [num]

theorem rstrip_append_zeros (c : Char) (s : List Char) (k : ℕ) : rstrip c (s ++ List.replicate k c) = rstrip c s := by
  unfold rstrip
  rw [List.reverse_append, List.reverse_replicate]
  congr 1
  induction k with
  | zero => rfl
  | succ k ih => rw [List.replicate_succ, List.cons_append, List.dropWhile_cons_of_pos (by simp)]; exact ih

theorem rstrip_last (c : Char) (s : List Char) (d : Char) (h : d ≠ c) : rstrip c (s ++ [d]) = s ++ [d] := by
  unfold rstrip
  rw [List.reverse_append, List.reverse_singleton, List.singleton_append, List.dropWhile_cons_of_neg (by simpa using h)]
  simp

/-- every text is its stripped form and some of the stripped characters -/
theorem rstrip_split (c : Char) (s : List Char) : ∃ k, s = rstrip c s ++ List.replicate k c ∧ (rstrip c s = [] ∨ ∃ t d, rstrip c s = t ++ [d] ∧ d ≠ c) := by
  induction s using List.reverseRecOn with
  | nil => exact ⟨0, rfl, Or.inl rfl⟩
  | append_singleton s d ih =>
    by_cases h : d = c
    · subst h
      obtain ⟨k, h1, h2⟩ := ih
      have e : rstrip d (s ++ [d]) = rstrip d s := rstrip_append_zeros d s 1
      rw [e]
      refine ⟨k + 1, ?_, h2⟩
      rw [List.replicate_succ', ← List.append_assoc, ← h1]
    · rw [rstrip_last c s d h]
      exact ⟨0, by simp, Or.inr ⟨s, d, rfl, h⟩⟩

theorem digit_ne {s : List Char} (h : Digits s) {c : Char} (hc : ¬ ('0' ≤ c ∧ c ≤ '9')) : ∀ d ∈ s, d ≠ c := by
  rintro d hd rfl
  exact hc (h d hd)

theorem takeWhile_append_sep {s t : List Char} {c : Char} (h : ∀ d ∈ s, d ≠ c) :
    (s ++ c :: t).takeWhile (· ≠ c) = s ∧ (s ++ c :: t).dropWhile (· ≠ c) = c :: t := by
  constructor
  · rw [List.takeWhile_append_of_pos (by simpa using h), List.takeWhile_cons_of_neg (by simp)]; simp
  · rw [List.dropWhile_append_of_pos (by simpa using h), List.dropWhile_cons_of_neg (by simp)]

theorem takeWhile_none {s : List Char} {c : Char} (h : ∀ d ∈ s, d ≠ c) : s.takeWhile (· ≠ c) = s ∧ s.dropWhile (· ≠ c) = [] := by
  constructor
  · rw [List.takeWhile_eq_self_iff]; simpa using h
  · rw [List.dropWhile_eq_nil_iff]; simpa using h

theorem mantissa_point {i f : List Char} (hi : Digits i) : mantissa (i ++ '.' :: f) = num i + num f / 10 ^ f.length := by
  obtain ⟨h1, h2⟩ := takeWhile_append_sep (t := f) (digit_ne hi (c := '.') (by decide))
  unfold mantissa
  rw [h1, h2]
  rfl

theorem mantissa_int {i : List Char} (hi : Digits i) : mantissa i = num i := by
  obtain ⟨h1, h2⟩ := takeWhile_none (digit_ne hi (c := '.') (by decide))
  unfold mantissa
  rw [h1, h2]
  simp [num]

theorem reading_plain {m : List Char} (h : ∀ d ∈ m, d ≠ 'e') : reading m = mantissa m := by
  obtain ⟨h1, h2⟩ := takeWhile_none h
  unfold reading
  rw [h1, h2]
  simp [expo, num]

/-- a level printed without exponent, `i.f`: both labels read as that number -/
theorem C267_plain (i f : List Char) (hi : Digits i) (hf : Digits f) :
    reading (i ++ '.' :: f) = num i + num f / 10 ^ f.length ∧
    reading (labelHist (i ++ '.' :: f)) = reading (i ++ '.' :: f) ∧ reading (labelSpiral (i ++ '.' :: f)) = reading (i ++ '.' :: f) := by
  obtain ⟨k, h1, h2⟩ := rstrip_split '0' f
  obtain ⟨g, hg⟩ : ∃ g, g = rstrip '0' f := ⟨_, rfl⟩
  rw [← hg] at h1 h2
  have dg : Digits g := fun c hc => hf c (by rw [h1]; exact List.mem_append_left _ hc)
  have ne : ∀ f : List Char, Digits f → ∀ d ∈ i ++ '.' :: f, d ≠ 'e' := by
    intro f hf d hd
    rcases List.mem_append.mp hd with h | h
    · exact digit_ne hi (by decide) d h
    · rcases List.mem_cons.mp h with rfl | h
      · decide
      · exact digit_ne hf (by decide) d h
  have val : reading (i ++ '.' :: f) = num i + num f / 10 ^ f.length := by rw [reading_plain (ne f hf), mantissa_point hi]
  have key : (num f : ℚ) / 10 ^ f.length = num g / 10 ^ g.length := by
    rw [h1, num_append, num_zeros]
    simp only [List.length_replicate, List.length_append, Nat.add_zero, Nat.cast_mul, Nat.cast_pow, Nat.cast_ofNat, pow_add]
    have : (10 : ℚ) ^ k ≠ 0 := by positivity
    have h' : (10 : ℚ) ^ g.length ≠ 0 := by positivity
    field_simp
  have hstrip : labelHist (i ++ '.' :: f) = i ++ '.' :: g := by
    unfold labelHist
    rw [h1, show i ++ '.' :: (g ++ List.replicate k '0') = (i ++ '.' :: g) ++ List.replicate k '0' by simp, rstrip_append_zeros]
    rcases h2 with h2 | ⟨t, d, h2, hd⟩
    · rw [h2]; exact rstrip_last '0' i '.' (by decide)
    · rw [h2, show i ++ '.' :: (t ++ [d]) = (i ++ '.' :: t) ++ [d] by simp]; exact rstrip_last '0' _ d hd
  refine ⟨val, ?_, ?_⟩
  · rw [hstrip, val, reading_plain (ne g dg), mantissa_point hi, key]
  · unfold labelSpiral
    rw [show rstrip '0' (i ++ '.' :: f) = i ++ '.' :: g from hstrip, val]
    rcases h2 with h2 | ⟨t, d, h2, hd⟩
    · have hz : rstrip '.' (i ++ ['.']) = i := by
        rw [show i ++ ['.'] = i ++ List.replicate 1 '.' from rfl, rstrip_append_zeros]
        rcases List.eq_nil_or_concat i with rfl | ⟨t, d, rfl⟩
        · rfl
        · rw [List.concat_eq_append] at hi ⊢
          exact rstrip_last '.' t d (digit_ne hi (by decide) d (by simp))
      rw [h2, hz, reading_plain (digit_ne hi (by decide)), mantissa_int hi, key, h2]
      simp [num]
    · have hd' : d ≠ '.' := digit_ne dg (by decide) d (by rw [h2]; simp)
      rw [h2, show i ++ '.' :: (t ++ [d]) = (i ++ '.' :: t) ++ [d] by simp, rstrip_last '.' _ d hd',
        show (i ++ '.' :: t) ++ [d] = i ++ '.' :: (t ++ [d]) by simp, ← h2, reading_plain (ne g dg), mantissa_point hi, key]

/-- whole numbers `i.0`: violated in `Hist2D`: '1.0' becomes '1.', not '1' as stated there; the adaptive mesh writes '1' -/
theorem C267_whole (i : List Char) (hi : Digits i) (hne : i ≠ []) : labelHist (i ++ ['.', '0']) = i ++ ['.'] ∧ labelSpiral (i ++ ['.', '0']) = i := by
  have h : rstrip '0' (i ++ ['.', '0']) = i ++ ['.'] := by
    rw [show i ++ ['.', '0'] = (i ++ ['.']) ++ List.replicate 1 '0' by simp, rstrip_append_zeros]
    exact rstrip_last '0' i '.' (by decide)
  refine ⟨h, ?_⟩
  unfold labelSpiral
  rw [h, show i ++ ['.'] = i ++ List.replicate 1 '.' from rfl, rstrip_append_zeros]
  rcases List.eq_nil_or_concat i with rfl | ⟨t, d, rfl⟩
  · exact absurd rfl hne
  · rw [List.concat_eq_append] at hi ⊢
    exact rstrip_last '.' t d (digit_ne hi (by decide) d (by simp))

/-- a level printed with an exponent that does not end in 0 is labelled as it is printed -/
theorem C267_exponent (m y : List Char) (s d : Char) (h0 : d ≠ '0') (hd : '0' ≤ d ∧ d ≤ '9') :
    labelHist (m ++ 'e' :: s :: (y ++ [d])) = m ++ 'e' :: s :: (y ++ [d]) ∧ labelSpiral (m ++ 'e' :: s :: (y ++ [d])) = m ++ 'e' :: s :: (y ++ [d]) := by
  have e : m ++ 'e' :: s :: (y ++ [d]) = (m ++ 'e' :: s :: y) ++ [d] := by simp
  have h' : d ≠ '.' := by rintro rfl; revert hd; decide
  refine ⟨?_, ?_⟩
  · unfold labelHist; rw [e]; exact rstrip_last _ _ _ h0
  · unfold labelSpiral; rw [e, rstrip_last _ _ _ h0]; exact rstrip_last _ _ _ h'

/-- violated: one whose exponent ends in zeros (1e-10, 1e+20) loses them, and the label reads as another number -/
theorem C267_wrong (m y : List Char) (neg : Bool) (d : Char) (k : ℕ) (hm : ∀ c ∈ m, c ≠ 'e') (h0 : d ≠ '0') (hd : '0' ≤ d ∧ d ≤ '9') (hk : 0 < k)
    (hv : mantissa m ≠ 0) :
    let repr := m ++ 'e' :: (if neg then '-' else '+') :: (y ++ [d] ++ List.replicate k '0')
    labelHist repr = m ++ 'e' :: (if neg then '-' else '+') :: (y ++ [d]) ∧ labelSpiral repr = labelHist repr ∧ reading (labelHist repr) ≠ reading repr := by
  intro repr
  obtain ⟨s, hs⟩ : ∃ s, s = (if neg then '-' else '+') := ⟨_, rfl⟩
  have e : repr = (m ++ 'e' :: s :: (y ++ [d])) ++ List.replicate k '0' := by simp only [repr, ← hs]; simp
  obtain ⟨p1, p2⟩ := C267_exponent m y s d h0 hd
  have h1 : labelHist repr = m ++ 'e' :: s :: (y ++ [d]) := by rw [e]; unfold labelHist at p1 ⊢; rw [rstrip_append_zeros]; exact p1
  have h2 : labelSpiral repr = m ++ 'e' :: s :: (y ++ [d]) := by rw [e]; unfold labelSpiral at p2 ⊢; rw [rstrip_append_zeros]; exact p2
  rw [← hs]
  refine ⟨h1, by rw [h1, h2], ?_⟩
  have rd : ∀ x, reading (m ++ 'e' :: s :: x) = mantissa m * (10 : ℚ) ^ expo (s :: x) := by
    intro x
    obtain ⟨t1, t2⟩ := takeWhile_append_sep (t := s :: x) hm
    unfold reading
    rw [t1, t2]
    rfl
  have hpos : 0 < num (y ++ [d]) := by
    rw [num_append]
    have : 0 < num [d] := by
      have h48 : 48 < d.toNat := by
        have h1 : '0'.toNat ≤ d.toNat := hd.1
        have h2 : d.toNat ≠ 48 := by
          intro h
          apply h0
          rw [← Char.ofNat_toNat d, h]
        have h3 : '0'.toNat = 48 := rfl
        omega
      simp only [num, List.foldl_cons, List.foldl_nil]
      omega
    omega
  have hlt : num (y ++ [d]) < num (y ++ [d] ++ List.replicate k '0') := by
    rw [num_append _ (List.replicate k '0'), num_zeros, List.length_replicate, Nat.add_zero]
    have : 1 < 10 ^ k := Nat.one_lt_pow hk.ne' (by norm_num)
    nlinarith
  have hrepr : repr = m ++ 'e' :: s :: (y ++ [d] ++ List.replicate k '0') := by simp only [repr, ← hs]
  rw [h1, hrepr, rd, rd]
  intro heq
  have hexp := mul_left_cancel₀ hv heq
  have hinj : expo (s :: (y ++ [d])) = expo (s :: (y ++ [d] ++ List.replicate k '0')) :=
    zpow_right_injective₀ (by norm_num) (by norm_num) hexp
  cases neg
  · have hs' : s = '+' := hs
    subst hs'
    simp only [expo] at hinj
    exact hlt.ne (by exact_mod_cast hinj)
  · have hs' : s = '-' := hs
    subst hs'
    simp only [expo] at hinj
    exact hlt.ne (by exact_mod_cast neg_injective hinj)

/-- the level 1e-10 is labelled "1e-1" -/
example : labelHist ['1', 'e', '-', '1', '0'] = ['1', 'e', '-', '1'] ∧ reading ['1', 'e', '-', '1', '0'] = 1 / 10 ^ 10 := by
  refine ⟨by decide, ?_⟩
  rw [show reading ['1', 'e', '-', '1', '0'] = mantissa ['1'] * (10 : ℚ) ^ expo ['-', '1', '0'] from rfl]
  have h1 : mantissa ['1'] = 1 := by rw [mantissa_int (by unfold Digits; decide)]; simp [num]
  have h2 : expo ['-', '1', '0'] = -10 := by decide
  rw [h1, h2]; norm_num

/-! ### C268 -/

/-- the interpolation sees exactly the cells with a finite value, each at its centre (the centre of the exponents on a logarithmic axis) -/
theorem C268_points (method : String) (logx logy : Bool) (mesh : List Spiral.Cell) (vals : List Fl) (hm : method = "rbf" ∨ method = "grid" ∨ method = "tricontour")
    (hl : vals.length = mesh.length) :
    ∃ ps, points method logx logy mesh vals = .ok ps ∧
      ∀ p v, (p, v) ∈ ps ↔ ∃ (i : ℕ) (c : Spiral.Cell), mesh[i]? = some c ∧ vals[i]? = some (.fin v) ∧
        p = (if logx then (10 : ℝ) ^ ((c.x0 + c.x1) / 2) else (c.x0 + c.x1) / 2, if logy then (10 : ℝ) ^ ((c.y0 + c.y1) / 2) else (c.y0 + c.y1) / 2) := by
  have hm' : ¬ method ∉ ["rbf", "grid", "tricontour"] := fun h => h (by simpa using hm)
  refine ⟨_, by unfold points; rw [if_neg hm', if_neg (by simpa using hl)], fun p v => ?_⟩
  rw [List.mem_filterMap]
  constructor
  · rintro ⟨⟨c, w⟩, hmem, hv⟩
    obtain ⟨i, hi⟩ := List.getElem?_of_mem hmem
    rw [List.getElem?_zip_eq_some] at hi
    cases w with
    | fin w =>
      simp only [Option.some.injEq, Prod.mk.injEq] at hv
      obtain ⟨rfl, rfl⟩ := hv
      exact ⟨i, c, hi.1, hi.2, rfl⟩
    | _ => simp at hv
  · rintro ⟨i, c, h1, h2, rfl⟩
    refine ⟨(c, .fin v), List.mem_of_getElem? (List.getElem?_zip_eq_some.mpr ⟨h1, h2⟩), rfl⟩

/-- the point of a cell lies in the drawn cell -/
theorem C268_inside (logx logy : Bool) (c : Spiral.Cell) (hx : c.x0 ≤ c.x1) (hy : c.y0 ≤ c.y1) :
    (if logx then (10 : ℝ) ^ c.x0 else c.x0) ≤ (centre logx logy c).1 ∧ (centre logx logy c).1 ≤ (if logx then (10 : ℝ) ^ c.x1 else c.x1) ∧
    (if logy then (10 : ℝ) ^ c.y0 else c.y0) ≤ (centre logx logy c).2 ∧ (centre logx logy c).2 ≤ (if logy then (10 : ℝ) ^ c.y1 else c.y1) := by
  have mono : ∀ a b : ℝ, a ≤ b → (10 : ℝ) ^ a ≤ (10 : ℝ) ^ b := fun a b h => Real.rpow_le_rpow_of_exponent_le (by norm_num) h
  unfold centre
  refine ⟨?_, ?_, ?_, ?_⟩
  · cases logx
    · simp only [Bool.false_eq_true, if_false]; linarith
    · simp only [if_true]; exact mono _ _ (by linarith)
  · cases logx
    · simp only [Bool.false_eq_true, if_false]; linarith
    · simp only [if_true]; exact mono _ _ (by linarith)
  · cases logy
    · simp only [Bool.false_eq_true, if_false]; linarith
    · simp only [if_true]; exact mono _ _ (by linarith)
  · cases logy
    · simp only [Bool.false_eq_true, if_false]; linarith
    · simp only [if_true]; exact mono _ _ (by linarith)

/-- an unknown method and a mesh that does not match the values are refused -/
theorem C268_refused (method : String) (logx logy : Bool) (mesh : List Spiral.Cell) (vals : List Fl)
    (h : ¬ (method = "rbf" ∨ method = "grid" ∨ method = "tricontour") ∨ vals.length ≠ mesh.length) :
    points method logx logy mesh vals = .error .valueError := by
  unfold points
  split
  · rfl
  · rename_i hm
    rcases h with h | h
    · exact absurd (by simpa using h) hm
    · rw [if_pos h]

/-- the grid of the interpolation: as many points as asked for, from the lowest to the highest abscissa, increasing; refused without any finite value -/
theorem C268_grid (xs : List ℝ) (n : ℕ) (a b : ℝ) (ha : a ∈ xs) (hb : b ∈ xs) (hlo : ∀ x ∈ xs, a ≤ x) (hhi : ∀ x ∈ xs, x ≤ b) (hn : 2 ≤ n) :
    ∃ g, gridAxis xs n = .ok g ∧ g.length = n ∧ g[0]? = some a ∧ g[n - 1]? = some b ∧
      ∀ (u v : ℝ) (j : ℕ), g[j]? = some u → g[j + 1]? = some v → v - u = (b - a) / (n - 1) := by
  have h1 : xs.min? = some a := List.min?_eq_some_iff.mpr ⟨ha, hlo⟩
  have h2 : xs.max? = some b := List.max?_eq_some_iff.mpr ⟨hb, hhi⟩
  have hn1 : n ≠ 1 := by omega
  refine ⟨_, by unfold gridAxis; rw [h1, h2], by simp, ?_, ?_, ?_⟩
  · rw [List.getElem?_map, List.getElem?_range (by omega)]; simp [hn1]
  · rw [List.getElem?_map, List.getElem?_range (by omega)]
    have hc : ((n - 1 : ℕ) : ℝ) = n - 1 := by rw [Nat.cast_sub (by omega)]; simp
    have hz : (n : ℝ) - 1 ≠ 0 := by
      have : (2 : ℝ) ≤ n := by exact_mod_cast hn
      intro h; linarith
    simp only [Option.map_some, if_neg hn1, hc, Option.some.injEq]
    field_simp
    ring
  · intro u v j hu hv
    rw [List.getElem?_map] at hu hv
    have hj : j + 1 < n := by
      by_contra h
      rw [List.getElem?_eq_none (by simpa using h)] at hv
      simp at hv
    rw [List.getElem?_range (by omega)] at hu hv
    simp only [Option.map_some, if_neg hn1, Option.some.injEq] at hu hv
    rw [← hu, ← hv]
    push_cast
    ring

theorem C268_empty (n : ℕ) : gridAxis [] n = .error .valueError := rfl

/-- levels and points that meet the hypotheses -/
example : ∃ p, hist2d (some "t") none none [] true true [("fmt", some "%d")] = .ok p ∧ p.drawn = [0.01, 0.1, 0.3, 0.7, 0.99] ∧ (0.7 : ℝ) ∈ p.labels ∧ (0.99 : ℝ) ∉ p.labels := by
  have hi : Incr [0.01, 0.1, 0.3, 0.7, 0.99] := by unfold Incr; norm_num
  obtain ⟨p, h1, h2, h3⟩ := C266_labels (some "t") none none [0.01, 0.1, 0.3, 0.7, 0.99] [] true [("fmt", some "%d")] (by simp [Hist.contourLevels]) hi
  refine ⟨p, h1, h2, (h3 _).mpr ⟨by simp, fun _ => ⟨0.99, by simp, by norm_num⟩⟩, fun h => ?_⟩
  obtain ⟨-, h⟩ := (h3 _).mp h
  obtain ⟨w, hw, hlt⟩ := h rfl
  simp only [List.mem_cons, List.not_mem_nil, or_false] at hw
  rcases hw with rfl | rfl | rfl | rfl | rfl <;> norm_num at hlt

example : ∃ ps, points "grid" true false [⟨0, 2, 1, 3⟩, ⟨2, 4, 1, 3⟩] [.fin 5, .nan] = .ok ps ∧ (((10 : ℝ) ^ (((0 : ℝ) + 2) / 2), ((1 : ℝ) + 3) / 2), (5 : ℝ)) ∈ ps := by
  obtain ⟨ps, h, hp⟩ := C268_points "grid" true false [⟨0, 2, 1, 3⟩, ⟨2, 4, 1, 3⟩] [.fin 5, .nan] (by simp) rfl
  exact ⟨ps, h, (hp _ _).mpr ⟨0, ⟨0, 2, 1, 3⟩, rfl, rfl, rfl⟩⟩

end Contour
end SW
