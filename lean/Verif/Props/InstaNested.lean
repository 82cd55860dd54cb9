import Verif.Props.Instability
import Mathlib.Analysis.Convex.SpecificFunctions.Pow

/-!
# Property C223: the stability bins of one plasma at different growth rates

A mode that grows at least as fast as 10^-2 grows at least as fast as 10^-3, so a plasma unstable at the first rate should be unstable
at the second.  The thresholds are separate fits; where do they respect this?
-/

namespace SW
namespace Insta
noncomputable section
open Classical
set_option exponentiation.threshold 3000

/-- how far the anisotropy is from 1 in the direction of the instability -/
def dev : Kind → ℝ → ℝ
  | .AIC, r => r - 1
  | .MM, r => r - 1
  | .FMW, r => 1 - r
  | .OFI, r => 1 - r

/-- how far the threshold is from 1 -/
def far (q : Abc) (x : ℝ) : ℝ := |q.a| / (x - q.c) ^ q.b

theorem thr_above (q : Abc) (x : ℝ) (hx : q.c < x) : threshold (.fin x) q = .fin (1 + q.a / (x - q.c) ^ q.b) := by
  have hz' : 0 < x - q.c := by linarith
  unfold threshold npow
  rw [show Fl.fin x - Fl.fin q.c = Fl.fin (x - q.c) from congrArg Fl.fin (sub_eq_add_neg _ _).symm]
  by_cases hb1 : q.b = 1
  · simp only [hb1, if_true, Real.rpow_one]
    rw [Fl.fin_div _ _ hz'.ne', one_add]
  · simp only [hb1, if_false]
    rw [Fl.rpow_fin _ _ hz', Fl.fin_div _ _ (Real.rpow_pos_of_pos hz' _).ne', one_add]

/-- an anisotropy exceeds a threshold iff beta is above the pole and the anisotropy is farther from 1 than the threshold -/
theorem exceeds_iff {g : Int} {p : Kind → Abc} (h : params g = .ok p) (x r : ℝ) (hx : 0 ≤ x) (k : Kind) :
    Exceeds p (.fin x) (.fin r) k ↔ (p k).c < x ∧ far (p k) x < dev k r := by
  obtain ⟨h1, h2, h3⟩ := params_sign h k
  by_cases hc : (p k).c < x
  · unfold Exceeds
    rw [thr_above _ _ hc]
    unfold far
    have hd : ∀ y : ℝ, |(p k).a| / y = |(p k).a| / y := fun _ => rfl
    cases k
    · rw [abs_of_pos (h2 trivial).1]
      show (_ < r) ↔ _
      exact ⟨fun hh => ⟨hc, by show _ < r - 1; linarith⟩, fun hh => by have : _ < r - 1 := hh.2; linarith⟩
    · rw [abs_of_neg (h3 id).1, neg_div]
      show (r < _) ↔ _
      exact ⟨fun hh => ⟨hc, by show _ < 1 - r; linarith⟩, fun hh => by have : _ < 1 - r := hh.2; linarith⟩
    · rw [abs_of_pos (h2 trivial).1]
      show (_ < r) ↔ _
      exact ⟨fun hh => ⟨hc, by show _ < r - 1; linarith⟩, fun hh => by have : _ < r - 1 := hh.2; linarith⟩
    · rw [abs_of_neg (h3 id).1, neg_div]
      show (r < _) ↔ _
      exact ⟨fun hh => ⟨hc, by show _ < 1 - r; linarith⟩, fun hh => by have : _ < 1 - r := hh.2; linarith⟩
  · refine ⟨fun he => ?_, fun hh => absurd hh.1 hc⟩
    exfalso
    unfold Exceeds at he
    have hthr : threshold (.fin x) (p k) = .nan ∨ (High k ∧ threshold (.fin x) (p k) = .pinf) ∨ (¬ High k ∧ threshold (.fin x) (p k) = .ninf) := by
      have hb1 : (p k).b ≠ 1 := by
        by_cases hk : High k
        · exact (h2 hk).2
        · rcases (h3 hk).2 with hh | hh
          · exact hh
          · exact absurd (lt_of_lt_of_le hh hx) hc
      unfold threshold npow
      rw [show Fl.fin x - Fl.fin (p k).c = Fl.fin (x - (p k).c) from congrArg Fl.fin (sub_eq_add_neg _ _).symm, if_neg hb1]
      rcases lt_or_eq_of_le (not_lt.1 hc) with hlt | heq
      · left
        have : Fl.rpow (.fin (x - (p k).c)) (p k).b = .nan := by unfold Fl.rpow; simp [hlt]
        rw [this]; rfl
      · right
        have : Fl.rpow (.fin (x - (p k).c)) (p k).b = .fin 0 := by unfold Fl.rpow; simp [heq, not_lt.2 h1.le]
        rw [this]
        by_cases hk : High k
        · left
          refine ⟨hk, ?_⟩
          have : Fl.fin (p k).a / Fl.fin 0 = .pinf := by
            show Fl.div _ _ = _
            unfold Fl.div; simp [(h2 hk).1, (h2 hk).1.ne']
          rw [this]; rfl
        · right
          refine ⟨hk, ?_⟩
          have : Fl.fin (p k).a / Fl.fin 0 = .ninf := by
            show Fl.div _ _ = _
            unfold Fl.div; simp [(h3 hk).1, (h3 hk).1.ne, not_lt.2 (h3 hk).1.le]
          rw [this]; rfl
    rcases hthr with e | ⟨hk, e⟩ | ⟨hk, e⟩ <;> rw [e] at he
    · cases k <;> exact he
    · cases k <;> first | exact he | exact hk
    · cases k <;> first | exact he | exact hk trivial

/-! ### numbers -/

theorem le_rpow (y x : ℝ) (m n : ℕ) (hx : 0 < x) (hy : 0 ≤ y) (hn : n ≠ 0) (h : y ^ n ≤ x ^ m) : y ≤ x ^ ((m : ℝ) / n) := by
  have e : (x ^ ((m : ℝ) / n)) ^ n = x ^ m := by
    rw [← Real.rpow_natCast, ← Real.rpow_mul hx.le, div_mul_cancel₀ _ (by exact_mod_cast hn), Real.rpow_natCast]
  rw [← e] at h
  exact le_of_pow_le_pow_left₀ hn (Real.rpow_nonneg hx.le _) h

theorem rpow_le (y x : ℝ) (m n : ℕ) (hx : 0 < x) (hy : 0 ≤ y) (hn : n ≠ 0) (h : x ^ m ≤ y ^ n) : x ^ ((m : ℝ) / n) ≤ y := by
  have e : (x ^ ((m : ℝ) / n)) ^ n = x ^ m := by
    rw [← Real.rpow_natCast, ← Real.rpow_mul hx.le, div_mul_cancel₀ _ (by exact_mod_cast hn), Real.rpow_natCast]
  rw [← e] at h
  exact le_of_pow_le_pow_left₀ hn hy h

/-- `far` compared by cross multiplication -/
theorem far_le (q q' : Abc) (x : ℝ) (h : q.c < x) (h' : q'.c < x) (hh : |q.a| * (x - q'.c) ^ q'.b ≤ |q'.a| * (x - q.c) ^ q.b) :
    far q x ≤ far q' x := by
  unfold far
  rw [div_le_div_iff₀ (Real.rpow_pos_of_pos (by linarith) _) (Real.rpow_pos_of_pos (by linarith) _)]
  exact hh

theorem far_lt (q q' : Abc) (x : ℝ) (h : q.c < x) (h' : q'.c < x) (hh : |q.a| * (x - q'.c) ^ q'.b < |q'.a| * (x - q.c) ^ q.b) :
    far q x < far q' x := by
  unfold far
  rw [div_lt_div_iff₀ (Real.rpow_pos_of_pos (by linarith) _) (Real.rpow_pos_of_pos (by linarith) _)]
  exact hh

/-- a larger power of a larger number: split off what the number is at least -/
theorem rpow_split (u v w b b' m : ℝ) (hu : 0 < u) (huv : u ≤ v) (hwv : w ≤ v) (hw : 0 < w) (hb : 0 ≤ b) (hbb : b ≤ b') (hm : m ≤ w ^ (b' - b)) (hm0 : 0 ≤ m) :
    m * u ^ b ≤ v ^ b' := by
  have hv : 0 < v := lt_of_lt_of_le hu huv
  have : v ^ b' = v ^ (b' - b) * v ^ b := by rw [← Real.rpow_add hv]; congr 1; ring
  rw [this]
  have h1 : m ≤ v ^ (b' - b) := hm.trans (Real.rpow_le_rpow hw.le hwv (by linarith))
  exact mul_le_mul h1 (Real.rpow_le_rpow hu.le huv hb) (Real.rpow_nonneg hu.le _) (hm0.trans h1)

/-- where a smaller power beats a larger one at both ends of an interval it does so in between -/
theorem between (A B c c' b b' l u x : ℝ) (hA : 0 ≤ A) (hB : 0 < B) (hb : 0 < b) (hb' : 0 ≤ b') (hbb : b' ≤ b) (hc : c < l) (hc' : c' < l)
    (hl : l ≤ x) (hu : x ≤ u) (h1 : B * (l - c) ^ b ≤ A * (l - c') ^ b') (h2 : B * (u - c) ^ b ≤ A * (u - c') ^ b') :
    B * (x - c) ^ b ≤ A * (x - c') ^ b' := by
  -- the root of the inequality: a concave function above an affine one
  have root : ∀ y, l ≤ y → (B * (y - c) ^ b ≤ A * (y - c') ^ b' ↔ y - c ≤ (A / B) ^ (1 / b) * (y - c') ^ (b' / b)) := by
    intro y hy
    have e : ((A / B) ^ (1 / b) * (y - c') ^ (b' / b)) ^ b = A / B * (y - c') ^ b' := by
      rw [Real.mul_rpow (Real.rpow_nonneg (div_nonneg hA hB.le) _) (Real.rpow_nonneg (by linarith) _),
        ← Real.rpow_mul (div_nonneg hA hB.le), ← Real.rpow_mul (by linarith), div_mul_cancel₀ _ hb.ne', div_mul_cancel₀ _ hb.ne', Real.rpow_one]
    have hnn : 0 ≤ (A / B) ^ (1 / b) * (y - c') ^ (b' / b) :=
      mul_nonneg (Real.rpow_nonneg (div_nonneg hA hB.le) _) (Real.rpow_nonneg (by linarith) _)
    rw [← Real.rpow_le_rpow_iff (by linarith : (0:ℝ) ≤ y - c) hnn hb, e, div_mul_eq_mul_div, le_div_iff₀ hB, mul_comm B]
  rw [root l le_rfl] at h1
  rw [root u (hl.trans hu)] at h2
  rw [root x hl]
  rcases eq_or_lt_of_le (hl.trans hu) with hlu | hlu
  · have : x = l := by linarith
    rw [this]; exact h1
  obtain ⟨t, ht, ht0, ht1⟩ : ∃ t, x = (1 - t) * l + t * u ∧ 0 ≤ t ∧ t ≤ 1 := by
    refine ⟨(x - l) / (u - l), ?_, div_nonneg (by linarith) (by linarith), (div_le_one (by linarith)).2 (by linarith)⟩
    have : u - l ≠ 0 := by linarith
    field_simp; ring
  have hconc := (Real.concaveOn_rpow (div_nonneg hb' hb.le) ((div_le_one hb).2 hbb)).2
    (show (l - c') ∈ Set.Ici (0:ℝ) from (by linarith : (0:ℝ) ≤ l - c')) (show (u - c') ∈ Set.Ici (0:ℝ) from (by linarith : (0:ℝ) ≤ u - c'))
    (by linarith : 0 ≤ 1 - t) ht0 (by ring)
  simp only [smul_eq_mul] at hconc
  have hx : (1 - t) * (l - c') + t * (u - c') = x - c' := by rw [ht]; ring
  rw [hx] at hconc
  have hM : 0 ≤ (A / B) ^ (1 / b) := Real.rpow_nonneg (div_nonneg hA hB.le) _
  calc x - c = (1 - t) * (l - c) + t * (u - c) := by rw [ht]; ring
    _ ≤ (1 - t) * ((A / B) ^ (1 / b) * (l - c') ^ (b' / b)) + t * ((A / B) ^ (1 / b) * (u - c') ^ (b' / b)) :=
        add_le_add (mul_le_mul_of_nonneg_left h1 (by linarith)) (mul_le_mul_of_nonneg_left h2 ht0)
    _ = (A / B) ^ (1 / b) * ((1 - t) * (l - c') ^ (b' / b) + t * (u - c') ^ (b' / b)) := by ring
    _ ≤ _ := mul_le_mul_of_nonneg_left hconc hM

/-- `far` of a steeper fit against a flatter one, where beta is large -/
theorem far_split (q q' : Abc) (x w m : ℝ) (hc : q.c ≤ q'.c) (h' : q'.c < x) (hw : 0 < w) (hwx : w ≤ x - q.c) (hb : 0 ≤ q'.b) (hbb : q'.b ≤ q.b)
    (hm : m ≤ w ^ (q.b - q'.b)) (hm0 : 0 ≤ m) (ha : |q.a| ≤ |q'.a| * m) : far q x ≤ far q' x := by
  apply far_le q q' x (by linarith) h'
  have := rpow_split (x - q'.c) (x - q.c) w q'.b q.b m (by linarith) (by linarith) hwx hw hb hbb hm hm0
  calc |q.a| * (x - q'.c) ^ q'.b ≤ |q'.a| * m * (x - q'.c) ^ q'.b :=
        mul_le_mul_of_nonneg_right ha (Real.rpow_nonneg (by linarith) _)
    _ = |q'.a| * (m * (x - q'.c) ^ q'.b) := by ring
    _ ≤ _ := mul_le_mul_of_nonneg_left this (abs_nonneg _)

theorem far_split_lt (q q' : Abc) (x w m : ℝ) (hc : q.c ≤ q'.c) (h' : q'.c < x) (hw : 0 < w) (hwx : w ≤ x - q.c) (hb : 0 ≤ q'.b) (hbb : q'.b ≤ q.b)
    (hm : m ≤ w ^ (q.b - q'.b)) (hm0 : 0 ≤ m) (ha : |q.a| < |q'.a| * m) : far q x < far q' x := by
  apply far_lt q q' x (by linarith) h'
  have := rpow_split (x - q'.c) (x - q.c) w q'.b q.b m (by linarith) (by linarith) hwx hw hb hbb hm hm0
  calc |q.a| * (x - q'.c) ^ q'.b < |q'.a| * m * (x - q'.c) ^ q'.b :=
        mul_lt_mul_of_pos_right ha (Real.rpow_pos_of_pos (by linarith) _)
    _ = |q'.a| * (m * (x - q'.c) ^ q'.b) := by ring
    _ ≤ _ := mul_le_mul_of_nonneg_left this (abs_nonneg _)

/-- `far` of a flatter fit against a steeper one, up to some beta -/
theorem far_cap (q q' : Abc) (x W m : ℝ) (hc : q.c ≤ q'.c) (h' : q'.c < x) (hW : x - q'.c ≤ W) (hb : 0 ≤ q.b) (hbb : q.b ≤ q'.b)
    (hm : W ^ (q'.b - q.b) ≤ m) (ha : |q.a| * m ≤ |q'.a|) : far q x ≤ far q' x := by
  apply far_le q q' x (by linarith) h'
  have hpos : 0 < x - q'.c := by linarith
  have e : (x - q'.c) ^ q'.b = (x - q'.c) ^ (q'.b - q.b) * (x - q'.c) ^ q.b := by rw [← Real.rpow_add hpos]; congr 1; ring
  have h1 : (x - q'.c) ^ (q'.b - q.b) ≤ m := (Real.rpow_le_rpow hpos.le hW (by linarith)).trans hm
  have h2 : (x - q'.c) ^ q.b ≤ (x - q.c) ^ q.b := Real.rpow_le_rpow hpos.le (by linarith) hb
  have h3 : 0 ≤ m := (Real.rpow_nonneg hpos.le _).trans h1
  rw [e]
  calc |q.a| * ((x - q'.c) ^ (q'.b - q.b) * (x - q'.c) ^ q.b) ≤ |q.a| * (m * (x - q.c) ^ q.b) :=
        mul_le_mul_of_nonneg_left (mul_le_mul h1 h2 (Real.rpow_nonneg hpos.le _) h3) (abs_nonneg _)
    _ = |q.a| * m * (x - q.c) ^ q.b := by ring
    _ ≤ _ := mul_le_mul_of_nonneg_right ha (Real.rpow_nonneg (by linarith) _)

/-! ### the fits against each other -/

def fit4 : Kind → Abc
  | .AIC => ⟨0.367, 0.364, 0.011⟩
  | .FMW => ⟨-0.408, 0.529, 0.41⟩
  | .MM => ⟨0.702, 0.674, -0.009⟩
  | .OFI => ⟨-1.454, 1.023, -0.178⟩
def fit3 : Kind → Abc
  | .AIC => ⟨0.437, 0.428, -0.003⟩
  | .FMW => ⟨-0.497, 0.566, 0.543⟩
  | .MM => ⟨0.801, 0.763, -0.063⟩
  | .OFI => ⟨-1.39, 1.005, -0.111⟩
def fit2 : Kind → Abc
  | .AIC => ⟨0.649, 0.4, 0.0⟩
  | .FMW => ⟨-0.647, 0.583, 0.713⟩
  | .MM => ⟨1.04, 0.633, -0.012⟩
  | .OFI => ⟨-1.447, 1.0, -0.148⟩

theorem p4 : params (-4) = .ok fit4 := by
  unfold params; rw [if_pos rfl]; congr 1
theorem p3 : params (-3) = .ok fit3 := by
  unfold params; rw [if_neg (by decide), if_pos rfl]; congr 1
theorem p2 : params (-2) = .ok fit2 := by
  unfold params; rw [if_neg (by decide), if_neg (by decide), if_pos rfl]; congr 1

/-- obligations about the decimals of the tables -/
macro "tab" : tactic => `(tactic| (first | (simp only [fit2, fit3, fit4]; norm_num [abs_of_pos, abs_of_neg]; done) | (simp only [fit2, fit3, fit4]; norm_num; linarith) | (simp only [fit2, fit3, fit4]; norm_num; assumption) | (simp only [fit2, fit3, fit4]; linarith)))

theorem far_split' (q q' : Abc) (x w m : ℝ) (n : ℕ) (hc : q.c ≤ q'.c) (h' : q'.c < x) (hwx : w ≤ x - q.c) (hb : 0 ≤ q'.b) (hw : 0 < w) (hm0 : 0 ≤ m)
    (he : q.b - q'.b = (n : ℝ) / ((1000 : ℕ) : ℝ)) (hm : m ^ 1000 ≤ w ^ n) (ha : |q.a| ≤ |q'.a| * m) : far q x ≤ far q' x := by
  refine far_split q q' x w m hc h' hw hwx hb ?_ ?_ hm0 ha
  · have : (0:ℝ) ≤ (n : ℝ) / ((1000 : ℕ) : ℝ) := by positivity
    linarith
  · rw [he]; exact le_rpow m w n 1000 hw hm0 (by norm_num) hm

theorem far_split_lt' (q q' : Abc) (x w m : ℝ) (n : ℕ) (hc : q.c ≤ q'.c) (h' : q'.c < x) (hwx : w ≤ x - q.c) (hb : 0 ≤ q'.b) (hw : 0 < w) (hm0 : 0 ≤ m)
    (he : q.b - q'.b = (n : ℝ) / ((1000 : ℕ) : ℝ)) (hm : m ^ 1000 ≤ w ^ n) (ha : |q.a| < |q'.a| * m) : far q x < far q' x := by
  refine far_split_lt q q' x w m hc h' hw hwx hb ?_ ?_ hm0 ha
  · have : (0:ℝ) ≤ (n : ℝ) / ((1000 : ℕ) : ℝ) := by positivity
    linarith
  · rw [he]; exact le_rpow m w n 1000 hw hm0 (by norm_num) hm

theorem far_cap' (q q' : Abc) (x W m : ℝ) (n : ℕ) (hc : q.c ≤ q'.c) (h' : q'.c < x) (hW : x - q'.c ≤ W) (hb : 0 ≤ q.b) (hW0 : 0 < W) (hm0 : 0 ≤ m)
    (he : q'.b - q.b = (n : ℝ) / ((1000 : ℕ) : ℝ)) (hm : W ^ n ≤ m ^ 1000) (ha : |q.a| * m ≤ |q'.a|) : far q x ≤ far q' x := by
  refine far_cap q q' x W m hc h' hW hb ?_ ?_ ha
  · have : (0:ℝ) ≤ (n : ℝ) / ((1000 : ℕ) : ℝ) := by positivity
    linarith
  · rw [he]; exact rpow_le m W n 1000 hW0 hm0 (by norm_num) hm

/-- `far` compared on an interval by its ends: flatter fit below steeper one -/
theorem far_between (q q' : Abc) (l u x yl yu zl zu : ℝ) (m n : ℕ) (hc : q.c < l) (hc' : q'.c < l) (hl : l ≤ x) (hu : x ≤ u)
    (hb : q.b = (m : ℝ) / ((1000 : ℕ) : ℝ)) (hb' : q'.b = (n : ℝ) / ((1000 : ℕ) : ℝ)) (hmn : m ≤ n) (hn : 0 < n) (ha : 0 < |q.a|)
    (hyl : 0 ≤ yl) (hzl : 0 ≤ zl) (hyu : 0 ≤ yu) (hzu : 0 ≤ zu)
    (h1 : (l - q'.c) ^ n ≤ yl ^ 1000) (h2 : zl ^ 1000 ≤ (l - q.c) ^ m) (h3 : (u - q'.c) ^ n ≤ yu ^ 1000) (h4 : zu ^ 1000 ≤ (u - q.c) ^ m)
    (e1 : |q.a| * yl ≤ |q'.a| * zl) (e2 : |q.a| * yu ≤ |q'.a| * zu) : far q x ≤ far q' x := by
  apply far_le q q' x (by linarith) (by linarith)
  have b1 := rpow_le yl (l - q'.c) n 1000 (by linarith) hyl (by norm_num) h1
  have b2 := le_rpow zl (l - q.c) m 1000 (by linarith) hzl (by norm_num) h2
  have b3 := rpow_le yu (u - q'.c) n 1000 (by linarith) hyu (by norm_num) h3
  have b4 := le_rpow zu (u - q.c) m 1000 (by linarith) hzu (by norm_num) h4
  rw [hb, hb']
  apply between |q'.a| |q.a| q'.c q.c _ _ l u x (abs_nonneg _) ha (by positivity) (by positivity)
    (by apply div_le_div_of_nonneg_right _ (by positivity); exact_mod_cast hmn) hc' hc hl hu
  · exact ((mul_le_mul_of_nonneg_left b1 (abs_nonneg _)).trans e1).trans (mul_le_mul_of_nonneg_left b2 (abs_nonneg _))
  · exact ((mul_le_mul_of_nonneg_left b3 (abs_nonneg _)).trans e2).trans (mul_le_mul_of_nonneg_left b4 (abs_nonneg _))

theorem aic23 (x : ℝ) (hx : 0 < x) : far (fit3 .AIC) x ≤ far (fit2 .AIC) x :=
  far_split' _ _ x 0.003 0.7 28 (by tab) (by tab) (by tab) (by tab) (by norm_num) (by norm_num) (by tab) (by norm_num) (by tab)

theorem mm23a (x : ℝ) (hx : 0.14 ≤ x) : far (fit3 .MM) x ≤ far (fit2 .MM) x :=
  far_split' _ _ x 0.203 0.78 130 (by tab) (by tab) (by tab) (by tab) (by norm_num) (by norm_num) (by tab) (by norm_num) (by tab)

theorem fmw23 (x : ℝ) (hx : 0.713 < x) (hu : x ≤ 1000) : far (fit3 .FMW) x ≤ far (fit2 .FMW) x :=
  far_cap' _ _ x 1000 1.13 17 (by tab) (by tab) (by tab) (by tab) (by norm_num) (by norm_num) (by tab) (by norm_num) (by tab)

theorem fmw2ofi3 (x : ℝ) (hx : 1000 ≤ x) : far (fit3 .OFI) x ≤ far (fit2 .FMW) x :=
  far_split' _ _ x 1000 3 422 (by tab) (by tab) (by tab) (by tab) (by norm_num) (by norm_num) (by tab) (by norm_num) (by tab)

theorem fmw34 (x : ℝ) (hx : 0.543 < x) (hu : x ≤ 100) : far (fit4 .FMW) x ≤ far (fit3 .FMW) x :=
  far_cap' _ _ x 100 1.2 37 (by tab) (by tab) (by tab) (by tab) (by norm_num) (by norm_num) (by tab) (by norm_num) (by tab)

theorem fmw3ofi4 (x : ℝ) (hx : 100 ≤ x) : far (fit4 .OFI) x ≤ far (fit3 .FMW) x :=
  far_split' _ _ x 100 3 457 (by tab) (by tab) (by tab) (by tab) (by norm_num) (by norm_num) (by tab) (by norm_num) (by tab)

theorem ofi3fmw4 (x : ℝ) (hl : 1.2 ≤ x) (hu : x ≤ 12.3) : far (fit4 .FMW) x ≤ far (fit3 .OFI) x :=
  far_between _ _ 1.2 12.3 x 1.32 12.57 0.8 3.70 529 1005 (by tab) (by tab) hl hu (by tab) (by tab) (by norm_num) (by norm_num) (by tab)
    (by norm_num) (by norm_num) (by norm_num) (by norm_num) (by tab) (by tab) (by tab) (by tab) (by tab) (by tab)

theorem ofi34 (x : ℝ) (hx : 12.3 ≤ x) : far (fit4 .OFI) x ≤ far (fit3 .OFI) x :=
  far_split' _ _ x 12.478 1.0462 18 (by tab) (by tab) (by tab) (by tab) (by norm_num) (by norm_num) (by tab) (by norm_num) (by tab)

theorem aic34 (x : ℝ) (hl : 0.02 ≤ x) (hu : x ≤ 6) : far (fit4 .AIC) x ≤ far (fit3 .AIC) x :=
  far_between _ _ 0.02 6 x 0.2 2.16 0.18 1.91 364 428 (by tab) (by tab) hl hu (by tab) (by tab) (by norm_num) (by norm_num) (by tab)
    (by norm_num) (by norm_num) (by norm_num) (by norm_num) (by tab) (by tab) (by tab) (by tab) (by tab) (by tab)

theorem mm3aic4 (x : ℝ) (hl : 0.02 ≤ x) (hu : x ≤ 6) : far (fit4 .AIC) x ≤ far (fit3 .MM) x :=
  far_between _ _ 0.02 6 x 0.16 3.96 0.18 1.91 364 763 (by tab) (by tab) hl hu (by tab) (by tab) (by norm_num) (by norm_num) (by tab)
    (by norm_num) (by norm_num) (by norm_num) (by norm_num) (by tab) (by tab) (by tab) (by tab) (by tab) (by tab)

theorem mm34 (x : ℝ) (hx : 9 ≤ x) : far (fit3 .MM) x < far (fit4 .MM) x :=
  far_split_lt' _ _ x 9 1.2 89 (by tab) (by tab) (by tab) (by tab) (by norm_num) (by norm_num) (by tab) (by norm_num) (by tab)

theorem mm3aic4big (x : ℝ) (hx : 9 ≤ x) : far (fit3 .MM) x < far (fit4 .AIC) x :=
  far_split_lt' _ _ x 9 2.3 399 (by tab) (by tab) (by tab) (by tab) (by norm_num) (by norm_num) (by tab) (by norm_num) (by tab)

theorem mmaic2 (x : ℝ) (hx : 14 ≤ x) : far (fit2 .MM) x ≤ far (fit2 .AIC) x :=
  far_split' _ _ x 14 1.65 233 (by tab) (by tab) (by tab) (by tab) (by norm_num) (by norm_num) (by tab) (by norm_num) (by tab)

theorem mmaic3 (x : ℝ) (hx : 14 ≤ x) : far (fit3 .MM) x ≤ far (fit3 .AIC) x :=
  far_split' _ _ x 14 2 335 (by tab) (by tab) (by tab) (by tab) (by norm_num) (by norm_num) (by tab) (by norm_num) (by tab)

theorem mmaic4 (x : ℝ) (hx : 14 ≤ x) : far (fit4 .MM) x ≤ far (fit4 .AIC) x :=
  far_split' _ _ x 14 2 310 (by tab) (by tab) (by tab) (by tab) (by norm_num) (by norm_num) (by tab) (by norm_num) (by tab)

theorem ofifmw2 (x : ℝ) (hx : 14 ≤ x) : far (fit2 .OFI) x ≤ far (fit2 .FMW) x :=
  far_split' _ _ x 14 2.3 417 (by tab) (by tab) (by tab) (by tab) (by norm_num) (by norm_num) (by tab) (by norm_num) (by tab)

theorem ofifmw3 (x : ℝ) (hx : 14 ≤ x) : far (fit3 .OFI) x ≤ far (fit3 .FMW) x :=
  far_split' _ _ x 14 2.9 439 (by tab) (by tab) (by tab) (by tab) (by norm_num) (by norm_num) (by tab) (by norm_num) (by tab)

theorem ofifmw4 (x : ℝ) (hx : 14 ≤ x) : far (fit4 .OFI) x ≤ far (fit4 .FMW) x :=
  far_split' _ _ x 14 3.6 494 (by tab) (by tab) (by tab) (by tab) (by norm_num) (by norm_num) (by tab) (by norm_num) (by tab)

theorem mm23 (x : ℝ) (hx : 0 ≤ x) : far (fit3 .MM) x ≤ far (fit2 .MM) x := by
  rcases le_or_gt 0.14 x with h | h
  · exact mm23a x h
  apply far_le _ _ x (by tab) (by tab)
  have e3 : (fit3 .MM) = ⟨0.801, 0.763, -0.063⟩ := rfl
  have e2 : (fit2 .MM) = ⟨1.04, 0.633, -0.012⟩ := rfl
  rw [e3, e2]
  simp only
  rw [abs_of_pos (by norm_num), abs_of_pos (by norm_num)]
  have hm : (0.69 : ℝ) ≤ (0.063 : ℝ) ^ ((0.763 : ℝ) - 0.633) := by
    have := le_rpow 0.69 0.063 130 1000 (by norm_num) (by norm_num) (by norm_num) (by norm_num)
    rwa [show (((130 : ℕ) : ℝ) / ((1000 : ℕ) : ℝ)) = (0.763 : ℝ) - 0.633 by norm_num] at this
  have hk : (1.19 : ℝ) ≤ (1.33 : ℝ) ^ (0.633 : ℝ) := by
    have := le_rpow 1.19 1.33 633 1000 (by norm_num) (by norm_num) (by norm_num) (by norm_num)
    rwa [show (((633 : ℕ) : ℝ) / ((1000 : ℕ) : ℝ)) = (0.633 : ℝ) by norm_num] at this
  have hs := rpow_split (1.33 * (x - -0.012)) (x - -0.063) 0.063 0.633 0.763 0.69 (by norm_num; linarith) (by norm_num at h ⊢; linarith) (by norm_num; linarith)
    (by norm_num) (by norm_num) (by norm_num) hm (by norm_num)
  rw [Real.mul_rpow (by norm_num) (by norm_num; linarith)] at hs
  have hp : (0:ℝ) ≤ (x - -0.012) ^ (0.633 : ℝ) := Real.rpow_nonneg (by norm_num; linarith) _
  nlinarith [mul_le_mul_of_nonneg_right hk hp]

theorem ofi23 (x : ℝ) (hx : 1 ≤ x) : far (fit3 .OFI) x ≤ far (fit2 .OFI) x := by
  apply far_le _ _ x (by tab) (by tab)
  have e3 : (fit3 .OFI) = ⟨-1.39, 1.005, -0.111⟩ := rfl
  have e2 : (fit2 .OFI) = ⟨-1.447, 1.0, -0.148⟩ := rfl
  rw [e3, e2]
  simp only
  rw [abs_of_neg (by norm_num), abs_of_neg (by norm_num), show (1.0 : ℝ) = 1 by norm_num, Real.rpow_one]
  have : (x - -0.111) ≤ (x - -0.111) ^ (1.005 : ℝ) := by
    have := Real.rpow_le_rpow_of_exponent_le (show (1:ℝ) ≤ x - -0.111 by norm_num; linarith) (show (1:ℝ) ≤ 1.005 by norm_num)
    rwa [Real.rpow_one] at this
  norm_num at this ⊢
  linarith

/-- the bins by the thresholds that are exceeded -/
theorem bins {g : Int} {p : Kind → Abc} (h : params g = .ok p) (x r : ℝ) (hx : 0 ≤ x) :
    ∃ b, stability 1 g (.fin x) (.fin r) = .ok b ∧
      (3 ≤ b ↔ Exceeds p (.fin x) (.fin r) .AIC ∨ Exceeds p (.fin x) (.fin r) .MM) ∧
      (b ≤ 1 ↔ Exceeds p (.fin x) (.fin r) .FMW ∨ Exceeds p (.fin x) (.fin r) .OFI) ∧
      (b = 4 ↔ Exceeds p (.fin x) (.fin r) .MM) ∧ (b = 0 ↔ Exceeds p (.fin x) (.fin r) .OFI) ∧
      (b = 2 ↔ ∀ k, ¬ Exceeds p (.fin x) (.fin r) k) ∧
      (b = 3 ↔ Exceeds p (.fin x) (.fin r) .AIC ∧ ¬ Exceeds p (.fin x) (.fin r) .MM) ∧
      (b = 1 ↔ Exceeds p (.fin x) (.fin r) .FMW ∧ ¬ Exceeds p (.fin x) (.fin r) .OFI) ∧ (0 ≤ b ∧ b ≤ 4) := by
  obtain ⟨b, h0, h4, h3, h00, h1, h2, hr, -, -⟩ := C60_bins h (.fin x) (.fin r) (by show ¬ x < 0; linarith)
  refine ⟨b, h0, ?_, ?_, h4, h00, h2, h3, h1, by omega⟩
  · constructor
    · intro hb
      rcases (show b = 3 ∨ b = 4 by omega) with hb | hb
      · exact .inl (h3.1 hb).1
      · exact .inr (h4.1 hb)
    · rintro (ha | hm)
      · by_cases hm : Exceeds p (.fin x) (.fin r) .MM
        · have := h4.2 hm; omega
        · have := h3.2 ⟨ha, hm⟩; omega
      · have := h4.2 hm; omega
  · constructor
    · intro hb
      rcases (show b = 0 ∨ b = 1 by omega) with hb | hb
      · exact .inr (h00.1 hb)
      · exact .inl (h1.1 hb).1
    · rintro (ha | hm)
      · by_cases hm : Exceeds p (.fin x) (.fin r) .OFI
        · have := h00.2 hm; omega
        · have := h1.2 ⟨ha, hm⟩; omega
      · have := h00.2 hm; omega

/-! ### C223 -/

/-- **C223** From 10^-2 to 10^-3: for every beta and every (non-negative) anisotropy, a plasma that is unstable at the faster growth rate is
unstable at the slower one, on the same side of isotropy; mirror-unstable stays mirror-unstable and oblique-firehose-unstable stays so. -/
theorem C223_23 (x r : ℝ) (hx : 0 ≤ x) (hr : 0 ≤ r) (b : Int) (h : stability 1 (-2) (.fin x) (.fin r) = .ok b) :
    ∃ b', stability 1 (-3) (.fin x) (.fin r) = .ok b' ∧ (3 ≤ b → 3 ≤ b') ∧ (b ≤ 1 → b' ≤ 1) ∧ (b = 4 → b' = 4) ∧ (b = 0 → b' = 0) := by
  obtain ⟨b1, e1, hot1, cold1, m1, o1, -⟩ := bins p2 x r hx
  obtain ⟨b2, e2, hot2, cold2, m2, o2, -⟩ := bins p3 x r hx
  rw [e1] at h
  obtain rfl := Except.ok.inj h
  have mm : Exceeds fit2 (.fin x) (.fin r) .MM → Exceeds fit3 (.fin x) (.fin r) .MM := by
    rw [exceeds_iff p2 x r hx, exceeds_iff p3 x r hx]
    rintro ⟨-, hh⟩
    exact ⟨by tab, (mm23 x hx).trans_lt hh⟩
  have aic : Exceeds fit2 (.fin x) (.fin r) .AIC → Exceeds fit3 (.fin x) (.fin r) .AIC := by
    rw [exceeds_iff p2 x r hx, exceeds_iff p3 x r hx]
    rintro ⟨hc, hh⟩
    have hc' : 0 < x := by simp only [fit2] at hc; norm_num at hc; exact hc
    exact ⟨by tab, (aic23 x hc').trans_lt hh⟩
  have ofi : Exceeds fit2 (.fin x) (.fin r) .OFI → Exceeds fit3 (.fin x) (.fin r) .OFI := by
    rw [exceeds_iff p2 x r hx, exceeds_iff p3 x r hx]
    rintro ⟨hc, hh⟩
    have h1 : 1 ≤ x := by
      by_contra hlt
      have : far (fit2 .OFI) x < 1 := hh.trans_le (by show 1 - r ≤ 1; linarith)
      have e : far (fit2 .OFI) x = 1.447 / (x + 0.148) := by
        unfold far fit2; simp only
        rw [abs_of_neg (by norm_num), show (1.0 : ℝ) = 1 by norm_num, Real.rpow_one]; norm_num
      rw [e, div_lt_one (by linarith)] at this
      norm_num at this; linarith
    exact ⟨by tab, (ofi23 x h1).trans_lt hh⟩
  have fmw : Exceeds fit2 (.fin x) (.fin r) .FMW → Exceeds fit3 (.fin x) (.fin r) .FMW ∨ Exceeds fit3 (.fin x) (.fin r) .OFI := by
    rw [exceeds_iff p2 x r hx, exceeds_iff p3 x r hx, exceeds_iff p3 x r hx]
    rintro ⟨hc, hh⟩
    have hc' : 0.713 < x := hc
    rcases le_total x 1000 with hu | hu
    · exact .inl ⟨by simp only [fit3]; norm_num at hc' ⊢; linarith, (fmw23 x hc' hu).trans_lt hh⟩
    · exact .inr ⟨by tab, (fmw2ofi3 x hu).trans_lt hh⟩
  refine ⟨b2, e2, fun hb => hot2.2 ((hot1.1 hb).imp aic mm), fun hb => cold2.2 ?_, fun hb => m2.2 (mm (m1.1 hb)), fun hb => o2.2 (ofi (o1.1 hb))⟩
  rcases cold1.1 hb with h | h
  · exact fmw h
  · exact .inr (ofi h)

/-- **C223** From 10^-3 to 10^-4, small anisotropies: the same, for every beta. -/
theorem C223_34_cold (x r : ℝ) (hx : 0 ≤ x) (hr : 0 ≤ r) (b : Int) (h : stability 1 (-3) (.fin x) (.fin r) = .ok b) (hb : b ≤ 1) :
    ∃ b', stability 1 (-4) (.fin x) (.fin r) = .ok b' ∧ b' ≤ 1 := by
  obtain ⟨b1, e1, -, cold1, -⟩ := bins p3 x r hx
  obtain ⟨b2, e2, -, cold2, -⟩ := bins p4 x r hx
  rw [e1] at h
  obtain rfl := Except.ok.inj h
  refine ⟨b2, e2, cold2.2 ?_⟩
  have hh := cold1.1 hb
  rw [exceeds_iff p3 x r hx, exceeds_iff p3 x r hx] at hh
  rw [exceeds_iff p4 x r hx, exceeds_iff p4 x r hx]
  rcases hh with ⟨hc, hh⟩ | ⟨-, hh⟩
  · have hc' : 0.543 < x := hc
    rcases le_total x 100 with hu | hu
    · exact .inl ⟨by simp only [fit4]; norm_num at hc' ⊢; linarith, (fmw34 x hc' hu).trans_lt hh⟩
    · exact .inr ⟨by tab, (fmw3ofi4 x hu).trans_lt hh⟩
  · have h1 : 1.2 ≤ x := by
      by_contra hlt
      have h1 : far (fit3 .OFI) x < 1 := hh.trans_le (by show 1 - r ≤ 1; linarith)
      have e : far (fit3 .OFI) x = 1.39 / (x + 0.111) ^ (1.005 : ℝ) := by
        unfold far fit3; simp only
        rw [abs_of_neg (by norm_num)]; norm_num
      rw [e, div_lt_one (Real.rpow_pos_of_pos (by linarith) _)] at h1
      have h2 : (x + 0.111) ^ (1.005 : ℝ) ≤ 1.311 ^ (1.005 : ℝ) := Real.rpow_le_rpow (by linarith) (by norm_num at hlt ⊢; linarith) (by norm_num)
      have h3 := rpow_le 1.32 1.311 1005 1000 (by norm_num) (by norm_num) (by norm_num) (by norm_num)
      rw [show (((1005 : ℕ) : ℝ) / ((1000 : ℕ) : ℝ)) = (1.005 : ℝ) by norm_num] at h3
      have := h1.trans_le (h2.trans h3)
      norm_num at this
    rcases le_total x 12.3 with hu | hu
    · exact .inl ⟨by simp only [fit4]; norm_num at h1 ⊢; linarith, (ofi3fmw4 x h1 hu).trans_lt hh⟩
    · exact .inr ⟨by tab, (ofi34 x hu).trans_lt hh⟩

/-- **C223** From 10^-3 to 10^-4, large anisotropies: the same for 0.02 ≤ beta ≤ 6 … -/
theorem C223_34_hot (x r : ℝ) (hx : 0.02 ≤ x) (hu : x ≤ 6) (b : Int) (h : stability 1 (-3) (.fin x) (.fin r) = .ok b) (hb : 3 ≤ b) :
    ∃ b', stability 1 (-4) (.fin x) (.fin r) = .ok b' ∧ 3 ≤ b' := by
  have hx0 : 0 ≤ x := by norm_num at hx; linarith
  obtain ⟨b1, e1, hot1, -⟩ := bins p3 x r hx0
  obtain ⟨b2, e2, hot2, -⟩ := bins p4 x r hx0
  rw [e1] at h
  obtain rfl := Except.ok.inj h
  refine ⟨b2, e2, hot2.2 (.inl ?_)⟩
  have hh := hot1.1 hb
  rw [exceeds_iff p3 x r hx0, exceeds_iff p3 x r hx0] at hh
  rw [exceeds_iff p4 x r hx0]
  refine ⟨by simp only [fit4]; norm_num at hx ⊢; linarith, ?_⟩
  rcases hh with ⟨-, hh⟩ | ⟨-, hh⟩
  · exact (aic34 x hx hu).trans_lt hh
  · exact (mm3aic4 x hx hu).trans_lt hh

theorem far_nonneg (q : Abc) (x : ℝ) (h : q.c < x) : 0 ≤ far q x := div_nonneg (abs_nonneg _) (Real.rpow_nonneg (by linarith) _)

/-- … (violated: a plasma unstable at the faster rate is unstable at the slower one)  At every beta from 9 on there are anisotropies that
are mirror-unstable at 10^-3 and called stable at 10^-4. -/
theorem C223_34_violated (x : ℝ) (hx : 9 ≤ x) :
    ∃ r, 1 < r ∧ stability 1 (-3) (.fin x) (.fin r) = .ok 4 ∧ stability 1 (-4) (.fin x) (.fin r) = .ok 2 := by
  have hx0 : 0 ≤ x := by linarith
  have h1 := mm34 x hx
  have h2 := mm3aic4big x hx
  have h3 : 0 ≤ far (fit3 .MM) x := far_nonneg _ _ (by tab)
  obtain ⟨d, d1, d2⟩ := exists_between (lt_min h1 h2)
  obtain ⟨d2, d3⟩ := lt_min_iff.1 d2
  refine ⟨1 + d, by linarith, ?_, ?_⟩
  · obtain ⟨b, e, -, -, m, -⟩ := bins p3 x (1 + d) hx0
    rw [e]; congr 1
    rw [m, exceeds_iff p3 x _ hx0]
    exact ⟨by tab, by show _ < 1 + d - 1; linarith⟩
  · obtain ⟨b, e, -, -, -, -, s, -⟩ := bins p4 x (1 + d) hx0
    rw [e]; congr 1
    rw [s]
    intro k
    rw [exceeds_iff p4 x _ hx0]
    rintro ⟨hc, hh⟩
    have h0 := far_nonneg _ _ hc
    cases k
    · have : _ < 1 + d - 1 := hh; linarith
    · have : _ < 1 - (1 + d) := hh; linarith
    · have : _ < 1 + d - 1 := hh; linarith
    · have : _ < 1 - (1 + d) := hh; linarith

/-- far as a quotient of bounded numbers -/
theorem far_lt_of (q q' : Abc) (x y z : ℝ) (h : q.c < x) (h' : q'.c < x) (hy : (x - q'.c) ^ q'.b ≤ y) (hz : z ≤ (x - q.c) ^ q.b)
    (hh : |q.a| * y < |q'.a| * z) : far q x < far q' x :=
  far_lt q q' x h h' (((mul_le_mul_of_nonneg_left hy (abs_nonneg _)).trans_lt hh).trans_le (mul_le_mul_of_nonneg_left hz (abs_nonneg _)))

theorem pow_ub (u W y b : ℝ) (n : ℕ) (hu : 0 < u) (huW : u ≤ W) (hy : 0 ≤ y) (hb : b = (n : ℝ) / ((1000 : ℕ) : ℝ)) (h : W ^ n ≤ y ^ 1000) : u ^ b ≤ y := by
  rw [hb]
  exact (Real.rpow_le_rpow hu.le huW (by positivity)).trans (rpow_le y W n 1000 (by linarith) hy (by norm_num) h)

theorem pow_lb (u w y b : ℝ) (n : ℕ) (hw : 0 < w) (huw : w ≤ u) (hy : 0 ≤ y) (hb : b = (n : ℝ) / ((1000 : ℕ) : ℝ)) (h : y ^ 1000 ≤ w ^ n) : y ≤ u ^ b := by
  rw [hb]
  exact (le_rpow y w n 1000 hw hy (by norm_num) h).trans (Real.rpow_le_rpow hw.le huw (by positivity))

/-- **C223** (violated) The same at every beta up to 0.015: unstable to ion-cyclotron waves at 10^-3, stable at 10^-4. -/
theorem C223_34_violated_low (x : ℝ) (hx : 0 ≤ x) (hu : x ≤ 0.015) :
    ∃ r, 1 < r ∧ stability 1 (-3) (.fin x) (.fin r) = .ok 3 ∧ stability 1 (-4) (.fin x) (.fin r) = .ok 2 := by
  norm_num at hu
  have h1 : far (fit3 .AIC) x < far (fit4 .MM) x := by
    refine far_lt_of _ _ x 0.0811 0.083 (by tab) (by tab) ?_ ?_ (by tab)
    · refine pow_ub _ 0.024 _ _ 674 (by tab) (by tab) (by norm_num) (by tab) (by norm_num)
    · refine pow_lb _ 0.003 _ _ 428 (by norm_num) (by tab) (by norm_num) (by tab) (by norm_num)
  have h2 : far (fit3 .AIC) x < far (fit3 .MM) x := by
    refine far_lt_of _ _ x 0.143 0.083 (by tab) (by tab) ?_ ?_ (by tab)
    · refine pow_ub _ 0.078 _ _ 763 (by tab) (by tab) (by norm_num) (by tab) (by norm_num)
    · refine pow_lb _ 0.003 _ _ 428 (by norm_num) (by tab) (by norm_num) (by tab) (by norm_num)
  have h3 : ∃ t, far (fit3 .AIC) x < t ∧ ((fit4 .AIC).c < x → t ≤ far (fit4 .AIC) x) := by
    by_cases hc : (fit4 .AIC).c < x
    · refine ⟨far (fit4 .AIC) x, ?_, fun _ => le_rfl⟩
      have hc' : 0.011 < x := hc
      norm_num at hc'
      refine far_lt_of _ _ x 0.1342 0.1608 (by tab) (by tab) ?_ ?_ (by tab)
      · refine pow_ub _ 0.004 _ _ 364 (by tab) (by tab) (by norm_num) (by tab) (by norm_num)
      · refine pow_lb _ 0.014 _ _ 428 (by norm_num) (by tab) (by norm_num) (by tab) (by norm_num)
    · exact ⟨far (fit3 .AIC) x + 1, by linarith, fun h => absurd h hc⟩
  obtain ⟨t, h3, h4⟩ := h3
  have h0 : 0 ≤ far (fit3 .AIC) x := far_nonneg _ _ (by tab)
  obtain ⟨d, d1, d2⟩ := exists_between (lt_min (lt_min h1 h2) h3)
  obtain ⟨d2, d4⟩ := lt_min_iff.1 d2
  obtain ⟨d2, d3⟩ := lt_min_iff.1 d2
  refine ⟨1 + d, by linarith, ?_, ?_⟩
  · obtain ⟨b, e, -, -, -, -, -, t, -⟩ := bins p3 x (1 + d) hx
    rw [e]; congr 1
    rw [t, exceeds_iff p3 x _ hx, exceeds_iff p3 x _ hx]
    exact ⟨⟨by tab, by show _ < 1 + d - 1; linarith⟩, fun hh => by have : _ < 1 + d - 1 := hh.2; linarith⟩
  · obtain ⟨b, e, -, -, -, -, s, -⟩ := bins p4 x (1 + d) hx
    rw [e]; congr 1
    rw [s]
    intro k
    rw [exceeds_iff p4 x _ hx]
    rintro ⟨hc, hh⟩
    have h0 := far_nonneg _ _ hc
    cases k
    · have : _ < 1 + d - 1 := hh
      have := h4 hc
      linarith
    · have : _ < 1 - (1 + d) := hh; linarith
    · have : _ < 1 + d - 1 := hh; linarith
    · have : _ < 1 - (1 + d) := hh; linarith

/-- **C223** From beta = 14 on nothing lies "between" two thresholds, at any growth rate: the bins 1 and 3 do not occur, whatever the anisotropy. -/
theorem C223_between_gone (g : Int) (hg : g = -2 ∨ g = -3 ∨ g = -4) (x r : ℝ) (hx : 14 ≤ x) :
    stability 1 g (.fin x) (.fin r) = .ok 0 ∨ stability 1 g (.fin x) (.fin r) = .ok 2 ∨ stability 1 g (.fin x) (.fin r) = .ok 4 := by
  have hx0 : 0 ≤ x := by linarith
  have key : ∀ (p : Kind → Abc), params g = .ok p → (∀ k, (p k).c < x) → far (p .MM) x ≤ far (p .AIC) x → far (p .OFI) x ≤ far (p .FMW) x →
      stability 1 g (.fin x) (.fin r) = .ok 0 ∨ stability 1 g (.fin x) (.fin r) = .ok 2 ∨ stability 1 g (.fin x) (.fin r) = .ok 4 := by
    intro p hp hc h1 h2
    obtain ⟨b, e, -, -, -, -, -, t, o, hr⟩ := bins hp x r hx0
    rw [e]
    have n3 : b ≠ 3 := by
      intro hb
      obtain ⟨ha, hm⟩ := t.1 hb
      rw [exceeds_iff hp x r hx0] at ha hm
      exact hm ⟨hc _, h1.trans_lt ha.2⟩
    have n1 : b ≠ 1 := by
      intro hb
      obtain ⟨ha, hm⟩ := o.1 hb
      rw [exceeds_iff hp x r hx0] at ha hm
      exact hm ⟨hc _, h2.trans_lt ha.2⟩
    rcases (show b = 0 ∨ b = 2 ∨ b = 4 by omega) with rfl | rfl | rfl
    · exact .inl rfl
    · exact .inr (.inl rfl)
    · exact .inr (.inr rfl)
  rcases hg with rfl | rfl | rfl
  · exact key _ p2 (fun k => by cases k <;> tab) (mmaic2 x hx) (ofifmw2 x hx)
  · exact key _ p3 (fun k => by cases k <;> tab) (mmaic3 x hx) (ofifmw3 x hx)
  · exact key _ p4 (fun k => by cases k <;> tab) (mmaic4 x hx) (ofifmw4 x hx)

/-! ### the hypotheses are met -/

/-- mirror-unstable at 10^-2 (beta 1, anisotropy 3): bin 4, hence bin 4 at 10^-3 -/
example : stability 1 (-2) (.fin 1) (.fin 3) = .ok 4 ∧ stability 1 (-3) (.fin 1) (.fin 3) = .ok 4 := by
  have h : stability 1 (-2) (.fin 1) (.fin 3) = .ok 4 := by
    obtain ⟨b, e, -, -, m, -⟩ := bins p2 1 3 (by norm_num)
    rw [e]; congr 1
    rw [m, exceeds_iff p2 1 3 (by norm_num)]
    refine ⟨by tab, ?_⟩
    unfold far fit2 dev; simp only
    rw [abs_of_pos (by norm_num), div_lt_iff₀ (Real.rpow_pos_of_pos (by norm_num) _)]
    have := Real.one_le_rpow (show (1:ℝ) ≤ 1 - -0.012 by norm_num) (show (0:ℝ) ≤ 0.633 by norm_num)
    norm_num at this ⊢; linarith
  obtain ⟨b', h1, -, -, h2, -⟩ := C223_23 1 3 (by norm_num) (by norm_num) 4 h
  exact ⟨h, by rw [h1, h2 rfl]⟩

/-- firehose-unstable at 10^-3 (beta 13.889, anisotropy 0) -/
example : stability 1 (-3) (.fin 13.889) (.fin 0) = .ok 0 := by
  obtain ⟨b, e, -, -, -, o, -⟩ := bins p3 13.889 0 (by norm_num)
  rw [e]; congr 1
  rw [o, exceeds_iff p3 13.889 0 (by norm_num)]
  refine ⟨by tab, ?_⟩
  unfold far fit3 dev; simp only
  rw [abs_of_neg (by norm_num), div_lt_iff₀ (Real.rpow_pos_of_pos (by norm_num) _)]
  have := Real.rpow_le_rpow_of_exponent_le (show (1:ℝ) ≤ 13.889 - -0.111 by norm_num) (show (1:ℝ) ≤ 1.005 by norm_num)
  norm_num at this ⊢; linarith

end
end Insta
end SW
