import Verif.FitGuess
import Verif.Props.FitFuncs2
import Mathlib.Analysis.Complex.ExponentialBounds

/-!
# Properties C179 - C181: initial guesses of composite, saturation, exponential, power-law and Moyal fits

Data are lists of points (abscissa, ordinate).
-/

namespace SW
noncomputable section
open Classical Fl

/-- abscissae and ordinates of a list of points -/
def absc (d : List (ℝ × ℝ)) : List Fl := d.map (fun p => fin p.1)
def ordi (d : List (ℝ × ℝ)) : List Fl := d.map (fun p => fin p.2)

/-- total weight -/
def tot (d : List (ℝ × ℝ)) : ℝ := (d.map (fun p => p.2)).sum
/-- `mu` is the centre of mass of the points, the ordinates being the weights -/
def IsCentre (d : List (ℝ × ℝ)) (mu : ℝ) : Prop := mu * tot d = (d.map (fun p => p.1 * p.2)).sum
/-- `s` is the spread (weighted standard deviation) about `mu` -/
def IsSpread (d : List (ℝ × ℝ)) (mu s : ℝ) : Prop := 0 ≤ s ∧ s ^ 2 * tot d = (d.map (fun p => (p.1 - mu) ^ 2 * p.2)).sum
/-- `h` is the largest ordinate -/
def IsTop (d : List (ℝ × ℝ)) (h : ℝ) : Prop := (∃ p ∈ d, p.2 = h) ∧ ∀ p ∈ d, p.2 ≤ h

theorem sumF {f : ℝ × ℝ → Fl} {g : ℝ × ℝ → ℝ} (h : ∀ p, f p = fin (g p)) (d : List (ℝ × ℝ)) : npSum (d.map f) = fin (d.map g).sum := by
  unfold npSum
  exact Fl.sumAll_fin' d f g (fun p _ => h p)

theorem zipAO (f : Fl → Fl → Fl) (d : List (ℝ × ℝ)) : List.zipWith f (absc d) (ordi d) = d.map (fun p => f (fin p.1) (fin p.2)) := by
  unfold absc ordi
  induction d with
  | nil => rfl
  | cons p d ih => simp [ih]

theorem selP (p : Fl → Prop) (q : ℝ → Prop) (hpq : ∀ t, p (fin t) ↔ q t) (d : List (ℝ × ℝ)) :
    selBy p (absc d) (absc d) = absc (d.filter (fun e => decide (q e.1))) ∧ selBy p (absc d) (ordi d) = ordi (d.filter (fun e => decide (q e.1))) := by
  unfold selBy absc ordi
  induction d with
  | nil => exact ⟨rfl, rfl⟩
  | cons a d ih =>
    by_cases h : q a.1
    · have h' := (hpq a.1).mpr h
      simp [compress, h, h'] at ih ⊢
      exact ih
    · have h' : ¬ p (fin a.1) := fun h1 => h ((hpq a.1).mp h1)
      simp [compress, h, h'] at ih ⊢
      exact ih

theorem sum_nonneg' {f : ℝ × ℝ → ℝ} {d : List (ℝ × ℝ)} (h : ∀ p ∈ d, 0 ≤ f p) : 0 ≤ (d.map f).sum :=
  List.sum_nonneg (by rintro v hv; obtain ⟨p, hp, rfl⟩ := List.mem_map.mp hv; exact h p hp)

theorem sum_pos' {f : ℝ × ℝ → ℝ} {d : List (ℝ × ℝ)} (h : ∀ p ∈ d, 0 ≤ f p) (hp : ∃ p ∈ d, 0 < f p) : 0 < (d.map f).sum := by
  induction d with
  | nil => obtain ⟨p, hp, -⟩ := hp; simp at hp
  | cons a d ih =>
    obtain ⟨p, hp, h1⟩ := hp
    have ha := h a (by simp)
    have hd := sum_nonneg' (f := f) (d := d) (fun p hp => h p (by simp [hp]))
    simp only [List.map_cons, List.sum_cons]
    rcases List.mem_cons.mp hp with rfl | hp
    · linarith
    · have := ih (fun p hp => h p (by simp [hp])) ⟨p, hp, h1⟩
      linarith

theorem sum_sub_mul (d : List (ℝ × ℝ)) (c : ℝ) :
    (d.map (fun p => (p.1 - c) * p.2)).sum = (d.map (fun p => p.1 * p.2)).sum - c * tot d := by
  unfold tot
  induction d with
  | nil => simp
  | cons a d ih => simp only [List.map_cons, List.sum_cons, ih]; ring

/-- the weighted statistics of points with positive total weight -/
theorem stats (d : List (ℝ × ℝ)) (hy : ∀ p ∈ d, 0 ≤ p.2) (ht : 0 < tot d) :
    ∃ mu s, wMean (absc d) (ordi d) = fin mu ∧ Fl.sqrt (wVar (absc d) (ordi d)) = fin s ∧ IsCentre d mu ∧ IsSpread d mu s := by
  have h1 : wMean (absc d) (ordi d) = fin ((d.map (fun p => p.1 * p.2)).sum / tot d) := by
    unfold wMean
    rw [zipAO, sumF (f := fun p => fin p.1 * fin p.2) (g := fun p => p.1 * p.2) (fun p => rfl), show npSum (ordi d) = fin (tot d) from sumF (fun p => rfl) d, fin_div _ _ ht.ne']
  obtain ⟨mu, hmu⟩ : ∃ mu, mu = (d.map (fun p => p.1 * p.2)).sum / tot d := ⟨_, rfl⟩
  rw [← hmu] at h1
  have h2 : wVar (absc d) (ordi d) = fin ((d.map (fun p => (p.1 - mu) ^ 2 * p.2)).sum / tot d) := by
    unfold wVar
    rw [zipAO, h1, sumF (g := fun p => (p.1 - mu) ^ 2 * p.2) (fun p => by simp), show npSum (ordi d) = fin (tot d) from sumF (fun p => rfl) d,
      fin_div _ _ ht.ne']
  have h3 : 0 ≤ (d.map (fun p => (p.1 - mu) ^ 2 * p.2)).sum / tot d :=
    div_nonneg (sum_nonneg' (fun p hp => mul_nonneg (sq_nonneg _) (hy p hp))) ht.le
  refine ⟨mu, _, h1, by rw [h2, Fl.sqrt_fin _ h3], ?_, Real.sqrt_nonneg _, ?_⟩
  · unfold IsCentre; rw [hmu]; field_simp
  · rw [Real.sq_sqrt h3]; field_simp

/-- no weight: the statistics are missing -/
theorem stats_nan (d : List (ℝ × ℝ)) (ht : ∀ p ∈ d, p.2 = 0) :
    wMean (absc d) (ordi d) = nan ∧ Fl.sqrt (wVar (absc d) (ordi d)) = nan := by
  have h0 : npSum (ordi d) = fin 0 := by
    have : (d.map (fun p => p.2)).sum = 0 := List.sum_eq_zero (by rintro v hv; obtain ⟨p, hp, rfl⟩ := List.mem_map.mp hv; exact ht p hp)
    rw [show npSum (ordi d) = fin ((d.map (fun p => p.2)).sum) from sumF (fun p => rfl) d, this]
  have h1 : npSum (List.zipWith (· * ·) (absc d) (ordi d)) = fin 0 := by
    rw [zipAO, sumF (f := fun p => fin p.1 * fin p.2) (g := fun p => p.1 * p.2) (fun p => rfl)]
    have : (d.map (fun p => p.1 * p.2)).sum = 0 := List.sum_eq_zero (by
      intro v hv
      obtain ⟨p, hp, rfl⟩ := List.mem_map.mp hv
      simp [ht p hp])
    rw [this]
  have hz : (fin 0 : Fl) / fin 0 = nan := by show Fl.div _ _ = _; simp [Fl.div]
  have hm : wMean (absc d) (ordi d) = nan := by unfold wMean; rw [h1, h0, hz]
  refine ⟨hm, ?_⟩
  unfold wVar
  rw [hm, zipAO]
  have : npSum (d.map (fun p => Fl.sq (fin p.1 - nan) * fin p.2)) / npSum (ordi d) = nan := by
    rw [h0]
    cases d with
    | nil => exact hz
    | cons p d =>
      unfold npSum
      rw [List.map_cons, Fl.sumAll_cons]
      simp [Fl.sq]
  rw [this]; rfl

theorem top (d : List (ℝ × ℝ)) (h : d ≠ []) : ∃ v, npMax (ordi d) = fin v ∧ IsTop d v := by
  obtain ⟨v, h1, h2, h3⟩ := npMax_fin (d.map Prod.snd) (by simpa using h)
  refine ⟨v, by rw [← h1]; simp [ordi, Function.comp_def], ?_, ?_⟩
  · obtain ⟨p, hp, rfl⟩ := List.mem_map.mp h2; exact ⟨p, hp, rfl⟩
  · intro p hp; exact h3 _ (List.mem_map_of_mem hp)

theorem len_absc (d : List (ℝ × ℝ)) : (absc d).length = d.length := by simp [absc]
theorem ordi_nil (d : List (ℝ × ℝ)) : ordi d = [] ↔ d = [] := by simp [ordi]

theorem tot_pos {d : List (ℝ × ℝ)} (hy : ∀ p ∈ d, 0 ≤ p.2) (h : ∃ p ∈ d, 0 < p.2) : 0 < tot d := sum_pos' hy h

/-! ### C179: composite fits -/

/-- the points beyond `g` -/
def beyond (g : ℝ) (d : List (ℝ × ℝ)) : List (ℝ × ℝ) := d.filter (fun e => decide (g < e.1))

theorem mem_beyond {g : ℝ} {d : List (ℝ × ℝ)} {p : ℝ × ℝ} : p ∈ beyond g d ↔ p ∈ d ∧ g < p.1 := by simp [beyond]

theorem sel_beyond (g : ℝ) (d : List (ℝ × ℝ)) :
    selBy (fun t => Fl.lt (fin g) t) (absc d) (absc d) = absc (beyond g d) ∧
    selBy (fun t => Fl.lt (fin g) t) (absc d) (ordi d) = ordi (beyond g d) := by
  have := selP (fun t => Fl.lt (fin g) t) (fun t => g < t) (fun t => by simp [lt_fin]) d
  exact this

/-- the centre of points beyond `g` lies beyond `g` -/
theorem centre_gt {d : List (ℝ × ℝ)} {g mu : ℝ} (hy : ∀ p ∈ d, 0 ≤ p.2) (hg : ∀ p ∈ d, g < p.1) (hp : ∃ p ∈ d, 0 < p.2) (h : IsCentre d mu) :
    g < mu := by
  have ht := tot_pos hy hp
  have h1 : 0 < (d.map (fun p => (p.1 - g) * p.2)).sum :=
    sum_pos' (fun p hp => mul_nonneg (by linarith [hg p hp]) (hy p hp)) (by
      obtain ⟨p, hp, h0⟩ := hp; exact ⟨p, hp, mul_pos (by linarith [hg p hp]) h0⟩)
  rw [sum_sub_mul, ← h] at h1
  by_contra hc
  have : (mu - g) * tot d ≤ 0 := mul_nonpos_of_nonpos_of_nonneg (by linarith [not_lt.mp hc]) ht.le
  linarith

/-- C179: the guess of a Gaussian cut off below the guessed position: centre, spread and height are those of the data beyond the position,
and the centre lies beyond it; without data beyond it ValueError; with data but no weight beyond it the guess is missing -/
theorem C179_times (g : ℝ) (d : List (ℝ × ℝ)) (hn : 4 ≤ d.length) (hy : ∀ p ∈ d, 0 ≤ p.2) :
    ((¬ ∃ p ∈ d, g < p.1) → gaussTimesP0 (fin g) (absc d) (ordi d) = .error .valueError) ∧
    ((∃ p ∈ d, g < p.1 ∧ 0 < p.2) → ∃ mu s h, gaussTimesP0 (fin g) (absc d) (ordi d) = .ok [fin g, fin mu, fin s, fin h] ∧ g < mu ∧
      IsCentre (beyond g d) mu ∧ IsSpread (beyond g d) mu s ∧ IsTop (beyond g d) h) ∧
    ((∃ p ∈ d, g < p.1) → (∀ p ∈ d, g < p.1 → p.2 = 0) →
      gaussTimesP0 (fin g) (absc d) (ordi d) = .ok [fin g, nan, nan, fin 0]) := by
  obtain ⟨e1, e2⟩ := sel_beyond g d
  have hyb : ∀ p ∈ beyond g d, 0 ≤ p.2 := fun p hp => hy p (mem_beyond.mp hp).1
  unfold gaussTimesP0
  rw [if_neg (by rw [len_absc]; omega)]
  simp only [e1, e2, ordi_nil]
  refine ⟨?_, ?_, ?_⟩
  · intro h
    rw [if_pos]
    by_contra hne
    obtain ⟨p, hp⟩ := List.exists_mem_of_ne_nil _ hne
    exact h ⟨p, mem_beyond.mp hp⟩
  · rintro ⟨p, hp, h1, h2⟩
    have hpb : p ∈ beyond g d := mem_beyond.mpr ⟨hp, h1⟩
    have hne : beyond g d ≠ [] := by rintro h0; rw [h0] at hpb; simp at hpb
    rw [if_neg hne]
    obtain ⟨mu, s, a1, a2, a3, a4⟩ := stats _ hyb (tot_pos hyb ⟨p, hpb, h2⟩)
    obtain ⟨v, b1, b2⟩ := top _ hne
    exact ⟨mu, s, v, by rw [a1, a2, b1], centre_gt hyb (fun q hq => (mem_beyond.mp hq).2) ⟨p, hpb, h2⟩ a3, a3, a4, b2⟩
  · rintro ⟨p, hp, h1⟩ h0
    have hpb : p ∈ beyond g d := mem_beyond.mpr ⟨hp, h1⟩
    have hne : beyond g d ≠ [] := by rintro h0; rw [h0] at hpb; simp at hpb
    rw [if_neg hne]
    have hz : ∀ q ∈ beyond g d, q.2 = 0 := fun q hq => h0 q (mem_beyond.mp hq).1 (mem_beyond.mp hq).2
    obtain ⟨a1, a2⟩ := stats_nan _ hz
    obtain ⟨v, b1, ⟨q, hq, hqv⟩, -⟩ := top _ hne
    rw [a1, a2, b1, ← hqv, hz q hq]

/-- C179: with a plateau below the position its height is the mean of the data up to the position, zero without such data; the rest is
guessed as without a plateau -/
theorem C179_times_plus (g : ℝ) (d : List (ℝ × ℝ)) (hn : 5 ≤ d.length) (hy : ∀ p ∈ d, 0 ≤ p.2) (hp : ∃ p ∈ d, g < p.1 ∧ 0 < p.2) :
    ∃ mu s h y1, gaussTimesPlusP0 (fin g) (absc d) (ordi d) = .ok [fin g, fin y1, fin mu, fin s, fin h] ∧
      gaussTimesP0 (fin g) (absc d) (ordi d) = .ok [fin g, fin mu, fin s, fin h] ∧
      ((∀ p ∈ d, g < p.1) → y1 = 0) ∧
      y1 * ((d.filter (fun e => decide (e.1 ≤ g))).length : ℝ) = tot (d.filter (fun e => decide (e.1 ≤ g))) ∧
      (∀ c, (∃ p ∈ d, p.1 ≤ g) → (∀ p ∈ d, p.1 ≤ g → p.2 = c) → y1 = c) := by
  obtain ⟨mu, s, h, h1, -⟩ := (C179_times g d (by omega) hy).2.1 hp
  obtain ⟨e1, e2⟩ := sel_beyond g d
  have e3 := (selP (fun t => ¬ Fl.lt (fin g) t) (fun t => t ≤ g) (fun t => by simp [lt_fin]) d).2
  obtain ⟨L, hL⟩ : ∃ L, L = d.filter (fun e => decide (e.1 ≤ g)) := ⟨_, rfl⟩
  rw [← hL] at e3 ⊢
  have memL : ∀ p, p ∈ L ↔ p ∈ d ∧ p.1 ≤ g := fun p => by rw [hL]; simp
  obtain ⟨y1, hy1, hy2⟩ : ∃ y1 : ℝ, (if (npMean (ordi L)).isNaN then fin 0 else npMean (ordi L)) = fin y1 ∧
      ((L = [] → y1 = 0) ∧ y1 * (L.length : ℝ) = tot L) := by
    have hm : npMean (ordi L) = fin (tot L) / fin L.length := by
      unfold npMean
      rw [show npSum (ordi L) = fin (tot L) from sumF (fun p => rfl) L]
      simp [ordi]
    by_cases hl : L = []
    · refine ⟨0, ?_, fun _ => rfl, ?_⟩
      · have hz : (fin 0 : Fl) / fin 0 = nan := by show Fl.div _ _ = _; simp [Fl.div]
        rw [hm, hl]
        simp only [tot, List.map_nil, List.sum_nil, List.length_nil, Nat.cast_zero, hz]
        simp [Fl.isNaN]
      · rw [hl]; simp [tot]
    · have hlen : (L.length : ℝ) ≠ 0 := by simpa using hl
      refine ⟨tot L / L.length, ?_, fun h => absurd h hl, by field_simp⟩
      rw [hm, fin_div _ _ hlen]
      simp [Fl.isNaN]
  refine ⟨mu, s, h, y1, ?_, h1, ?_, hy2.2, ?_⟩
  · unfold gaussTimesP0 at h1
    rw [if_neg (by rw [len_absc]; omega)] at h1
    unfold gaussTimesPlusP0
    rw [if_neg (by rw [len_absc]; omega)]
    simp only [] at h1 ⊢
    rw [e3, hy1]
    split at h1
    · simp at h1
    · rename_i hne
      rw [if_neg hne]
      simp only [Except.ok.injEq, List.cons.injEq, and_true, true_and] at h1
      rw [h1.1, h1.2.1, h1.2.2]
  · intro hall
    apply hy2.1
    by_contra hne
    obtain ⟨p, hp⟩ := List.exists_mem_of_ne_nil _ hne
    have := (memL p).mp hp
    linarith [hall p this.1]
  · rintro c ⟨p, hpd, hpg⟩ hc
    have hne : L ≠ [] := by
      intro h0
      have := (memL p).mpr ⟨hpd, hpg⟩
      rw [h0] at this; simp at this
    have ht : tot L = c * L.length := by
      have : ∀ l : List (ℝ × ℝ), (∀ p ∈ l, p.2 = c) → tot l = c * l.length := by
        intro l
        induction l with
        | nil => intro _; simp [tot]
        | cons a l ih =>
          intro h
          have := ih (fun p hp => h p (by simp [hp]))
          unfold tot at this ⊢
          simp only [List.map_cons, List.sum_cons, this, h a (by simp), List.length_cons]
          push_cast; ring
      exact this L (fun p hp => hc p ((memL p).mp hp).1 ((memL p).mp hp).2)
    have hlen : (L.length : ℝ) ≠ 0 := by simpa using hne
    have := hy2.2
    rw [ht] at this
    exact mul_right_cancel₀ hlen this

/-- C179: the guess of a Gaussian on a step: the step is put at three quarters of the centre `m` of all data and 0.8 times their height;
if some weight lies beyond it the Gaussian is that of the data there, with a centre not below `m`, and for `m > 0` there always is -/
theorem C179_plus (d : List (ℝ × ℝ)) (m : ℝ) (hn : 6 ≤ d.length) (hy : ∀ p ∈ d, 0 ≤ p.2) (hpos : ∃ p ∈ d, 0 < p.2) (hm : IsCentre d m) :
    (0 < m → ∃ p ∈ d, 0.75 * m < p.1 ∧ 0 < p.2) ∧
    ((∃ p ∈ d, 0.75 * m < p.1 ∧ 0 < p.2) → ∃ mu s h, IsTop d h ∧
      gaussPlusP0 (absc d) (ordi d) = .ok [fin (0.75 * m), fin 0, fin (0.8 * h), fin mu, fin s, fin h] ∧ m ≤ mu ∧
      IsCentre (beyond (0.75 * m) d) mu ∧ IsSpread (beyond (0.75 * m) d) mu s) ∧
    ((∀ p ∈ d, 0.75 * m < p.1 → p.2 = 0) → ∃ h, IsTop d h ∧
      gaussPlusP0 (absc d) (ordi d) = .ok [fin (0.75 * m), fin 0, fin (0.8 * h), nan, nan, fin h]) := by
  have ht := tot_pos hy hpos
  have hne : d ≠ [] := by rintro rfl; simp at hn
  obtain ⟨mu0, s0, a1, -, a3, -⟩ := stats d hy ht
  have hmm : mu0 = m := by
    unfold IsCentre at a3 hm
    exact mul_right_cancel₀ ht.ne' (a3.trans hm.symm)
  rw [hmm] at a1
  obtain ⟨h, b1, b2⟩ := top d hne
  obtain ⟨e1, e2⟩ := sel_beyond (0.75 * m) d
  have hdef : gaussPlusP0 (absc d) (ordi d) = .ok [fin (0.75 * m), fin 0, fin (0.8 * h),
      wMean (absc (beyond (0.75 * m) d)) (ordi (beyond (0.75 * m) d)),
      Fl.sqrt (wVar (absc (beyond (0.75 * m) d)) (ordi (beyond (0.75 * m) d))), fin h] := by
    unfold gaussPlusP0
    rw [if_neg (by rw [len_absc]; omega)]
    simp only [a1, b1, fin_mul, e1, e2]
  have hyb : ∀ p ∈ beyond (0.75 * m) d, 0 ≤ p.2 := fun p hp => hy p (mem_beyond.mp hp).1
  refine ⟨?_, ?_, ?_⟩
  · intro hm0
    by_contra hc
    push Not at hc
    have h1 : 0 ≤ (d.map (fun p => (0.75 * m - p.1) * p.2)).sum := by
      apply sum_nonneg'
      intro p hp
      rcases lt_or_ge (0.75 * m) p.1 with h' | h'
      · have : p.2 = 0 := le_antisymm (hc p hp h') (hy p hp)
        rw [this]; simp
      · exact mul_nonneg (by linarith) (hy p hp)
    have h2 : (d.map (fun p => (0.75 * m - p.1) * p.2)).sum = -(d.map (fun p => (p.1 - 0.75 * m) * p.2)).sum := by
      clear * -
      induction d with
      | nil => simp
      | cons a d ih => simp only [List.map_cons, List.sum_cons, ih]; ring
    rw [h2, sum_sub_mul, ← hm] at h1
    have : 0 < m * tot d := mul_pos hm0 ht
    linarith
  · rintro ⟨p, hp, h1, h2⟩
    have hpb : p ∈ beyond (0.75 * m) d := mem_beyond.mpr ⟨hp, h1⟩
    have htb := tot_pos hyb ⟨p, hpb, h2⟩
    obtain ⟨mu, s, c1, c2, c3, c4⟩ := stats _ hyb htb
    refine ⟨mu, s, h, b2, by rw [hdef, c1, c2], ?_, c3, c4⟩
    rcases le_or_gt 0 m with hm0 | hm0
    · -- the points left out lie below the centre
      have hsplit : ∀ l : List (ℝ × ℝ), (l.map (fun p => (p.1 - m) * p.2)).sum =
          ((beyond (0.75 * m) l).map (fun p => (p.1 - m) * p.2)).sum +
          ((l.filter (fun e => decide (¬ 0.75 * m < e.1))).map (fun p => (p.1 - m) * p.2)).sum := by
        intro l
        induction l with
        | nil => simp [beyond]
        | cons a l ih =>
          unfold beyond at ih ⊢
          by_cases hh : 0.75 * m < a.1
          · simp only [List.filter_cons, hh, decide_true, if_true, List.map_cons, List.sum_cons, not_true_eq_false, decide_false, Bool.false_eq_true, if_false, ih]; ring
          · simp only [List.filter_cons, hh, decide_true, if_true, List.map_cons, List.sum_cons, not_false_eq_true, decide_false, Bool.false_eq_true, if_false, ih]; ring
      have hl := hsplit d
      have h0 : (d.map (fun p => (p.1 - m) * p.2)).sum = 0 := by rw [sum_sub_mul, ← hm]; ring
      have h3 : 0 ≤ -((d.filter (fun e => decide (¬ 0.75 * m < e.1))).map (fun p => (p.1 - m) * p.2)).sum := by
        have : ∀ l : List (ℝ × ℝ), (∀ p ∈ l, p ∈ d ∧ ¬ 0.75 * m < p.1) → (l.map (fun p => (p.1 - m) * p.2)).sum ≤ 0 := by
          intro l
          induction l with
          | nil => intro _; simp
          | cons a l ih =>
            intro hl
            have := ih (fun p hp => hl p (by simp [hp]))
            have ha := hl a (by simp)
            have : (a.1 - m) * a.2 ≤ 0 := mul_nonpos_of_nonpos_of_nonneg (by linarith [not_lt.mp ha.2]) (hy a ha.1)
            simp only [List.map_cons, List.sum_cons]; linarith
        have := this (d.filter (fun e => decide (¬ 0.75 * m < e.1))) (fun p hp => by simpa using hp)
        linarith
      rw [h0, sum_sub_mul, ← c3] at hl
      by_contra hc
      have : (mu - m) * tot (beyond (0.75 * m) d) < 0 := mul_neg_of_neg_of_pos (by linarith [not_le.mp hc]) htb
      linarith
    · have := centre_gt hyb (fun q hq => (mem_beyond.mp hq).2) ⟨p, hpb, h2⟩ c3
      linarith
  · intro h0
    have hz : ∀ q ∈ beyond (0.75 * m) d, q.2 = 0 := fun q hq => h0 q (mem_beyond.mp hq).1 (mem_beyond.mp hq).2
    obtain ⟨c1, c2⟩ := stats_nan _ hz
    exact ⟨h, b2, by rw [hdef, c1, c2]⟩

/-- the data moved along the abscissa -/
def shift (c : ℝ) (d : List (ℝ × ℝ)) : List (ℝ × ℝ) := d.map (fun p => (p.1 + c, p.2))

/-- C179 (violated): the guess depends on the origin of the abscissa: whatever the data, moved far enough to the left they have no usable
guess (centre and width are missing) although moved far enough to the right they have -/
theorem C179_plus_origin (d : List (ℝ × ℝ)) (hn : 6 ≤ d.length) (hy : ∀ p ∈ d, 0 ≤ p.2) (hpos : ∃ p ∈ d, 0 < p.2) :
    ∃ c0 : ℝ, (∀ c ≤ -c0, ∃ a b h, gaussPlusP0 (absc (shift c d)) (ordi (shift c d)) = .ok [a, fin 0, b, nan, nan, fin h]) ∧
      (∀ c ≥ c0, ∃ a b mu s h, gaussPlusP0 (absc (shift c d)) (ordi (shift c d)) = .ok [a, fin 0, b, fin mu, fin s, fin h]) := by
  have ht := tot_pos hy hpos
  obtain ⟨m, s, -, -, hm, -⟩ := stats d hy ht
  -- a bound of the abscissae and the centre
  obtain ⟨B, hB⟩ : ∃ B, ∀ p ∈ d, |p.1| ≤ B := by
    clear * -
    induction d with
    | nil => exact ⟨0, by simp⟩
    | cons a d ih =>
      obtain ⟨B, hB⟩ := ih
      refine ⟨max |a.1| B, fun p hp => ?_⟩
      rcases List.mem_cons.mp hp with rfl | hp
      · exact le_max_left _ _
      · exact (hB p hp).trans (le_max_right _ _)
  have hs : ∀ c, IsCentre (shift c d) (m + c) ∧ tot (shift c d) = tot d := by
    intro c
    have ht' : tot (shift c d) = tot d := by simp [tot, shift, Function.comp_def]
    refine ⟨?_, ht'⟩
    unfold IsCentre at hm ⊢
    rw [ht', add_mul, hm]
    unfold shift tot
    clear * -
    induction d with
    | nil => simp
    | cons a d ih => simp only [List.map_cons, List.sum_cons, List.map_map, Function.comp_def] at ih ⊢; linarith
  have hys : ∀ c, ∀ p ∈ shift c d, 0 ≤ p.2 := by
    intro c p hp
    obtain ⟨q, hq, rfl⟩ := List.mem_map.mp hp
    exact hy q hq
  have hps : ∀ c, ∃ p ∈ shift c d, 0 < p.2 := by
    intro c
    obtain ⟨p, hp, h⟩ := hpos
    exact ⟨_, List.mem_map_of_mem hp, h⟩
  have hlen : ∀ c, 6 ≤ (shift c d).length := by intro c; simp [shift, hn]
  refine ⟨4 * B + 3 * |m| + 1, fun c hc => ?_, fun c hc => ?_⟩
  · obtain ⟨h, -, e⟩ := (C179_plus _ _ (hlen c) (hys c) (hps c) (hs c).1).2.2 (by
      intro p hp hlt
      exfalso
      obtain ⟨q, hq, rfl⟩ := List.mem_map.mp hp
      simp only at hlt
      have := (abs_le.mp (hB q hq)).2
      have := (abs_le.mp (le_refl |m|)).1
      linarith)
    exact ⟨_, _, h, e⟩
  · have hpm : 0 < m + c := by
      have h1 := (abs_le.mp (le_refl |m|)).1
      obtain ⟨p, hp, -⟩ := hpos
      have h2 := (abs_nonneg p.1).trans (hB p hp)
      have h3 := abs_nonneg m
      linarith
    have hc1 := C179_plus _ _ (hlen c) (hys c) (hps c) (hs c).1
    obtain ⟨mu, s, h, -, e, -⟩ := hc1.2.1 (hc1.1 hpm)
    exact ⟨_, _, mu, s, h, e⟩

/-- non-vacuity: a cut Gaussian with a plateau, and data entirely on the negative axis with no usable guess -/
example : ∃ d : List (ℝ × ℝ), 6 ≤ d.length ∧ (∀ p ∈ d, 0 ≤ p.2) ∧ (∃ p ∈ d, (2 : ℝ) < p.1 ∧ 0 < p.2) ∧ ∃ p ∈ d, p.1 ≤ 2 :=
  ⟨[(0, 1), (1, 1), (2, 1), (3, 2), (4, 5), (5, 2)], by simp, by norm_num, ⟨(4, 5), by simp, by norm_num⟩, ⟨(0, 1), by simp, by norm_num⟩⟩

/-! ### C180: saturation -/

/-- the sum of squared deviations of the points from the line -/
def misfit (d : List (ℝ × ℝ)) (m b : ℝ) : ℝ := (d.map (fun p => (p.2 - (m * p.1 + b)) ^ 2)).sum

/-- two points with different abscissae -/
def TwoX (d : List (ℝ × ℝ)) : Prop := ∃ p ∈ d, ∃ q ∈ d, p.1 ≠ q.1

/-- specification of `np.polyfit(x, y, 1)[0]`: the slope of a line of least misfit -/
def IsLSQ (slope : List Fl → List Fl → Fl) : Prop :=
  ∀ d, TwoX d → ∃ m b, slope (absc d) (ordi d) = fin m ∧ ∀ m' b', misfit d m b ≤ misfit d m' b'

theorem sum_zero' {f : ℝ × ℝ → ℝ} {d : List (ℝ × ℝ)} (h : ∀ p ∈ d, 0 ≤ f p) (h0 : (d.map f).sum ≤ 0) : ∀ p ∈ d, f p = 0 := by
  intro p hp
  by_contra hne
  have := sum_pos' h ⟨p, hp, lt_of_le_of_ne (h p hp) (Ne.symm hne)⟩
  linarith

/-- the least-squares slope of points on a line is the slope of the line -/
theorem lsq_line {slope : List Fl → List Fl → Fl} (hs : IsLSQ slope) {d : List (ℝ × ℝ)} (h2 : TwoX d) (m b : ℝ) (hd : ∀ p ∈ d, p.2 = m * p.1 + b) :
    slope (absc d) (ordi d) = fin m := by
  obtain ⟨m', b', e, hmin⟩ := hs d h2
  rw [e, fin_inj]
  have h0 : misfit d m b = 0 := List.sum_eq_zero (by
    intro v hv
    obtain ⟨p, hp, rfl⟩ := List.mem_map.mp hv
    rw [hd p hp]; ring)
  have hz := sum_zero' (f := fun p => (p.2 - (m' * p.1 + b')) ^ 2) (d := d) (fun p _ => sq_nonneg _) (by
    have := hmin m b
    rw [h0] at this; exact this)
  obtain ⟨p, hp, q, hq, hne⟩ := h2
  have e1 : p.2 - (m' * p.1 + b') = 0 := by have := hz p hp; simpa using this
  have e2 : q.2 - (m' * q.1 + b') = 0 := by have := hz q hq; simpa using this
  rw [hd p hp] at e1
  rw [hd q hq] at e2
  have : (m' - m) * (p.1 - q.1) = 0 := by linear_combination e2 - e1
  rcases mul_eq_zero.mp this with h | h
  · linarith
  · exact absurd (by linarith) hne

theorem sum_add' (f g : ℝ × ℝ → ℝ) (d : List (ℝ × ℝ)) : (d.map (fun p => f p + g p)).sum = (d.map f).sum + (d.map g).sum := by
  induction d with
  | nil => simp
  | cons a d ih => simp only [List.map_cons, List.sum_cons, ih]; ring

theorem sum_mul' (c : ℝ) (f : ℝ × ℝ → ℝ) (d : List (ℝ × ℝ)) : (d.map (fun p => c * f p)).sum = c * (d.map f).sum := by
  induction d with
  | nil => simp
  | cons a d ih => simp only [List.map_cons, List.sum_cons, ih]; ring

/-- there is a line of least misfit -/
theorem lsq_exists (d : List (ℝ × ℝ)) (h2 : TwoX d) : ∃ m b, ∀ m' b', misfit d m b ≤ misfit d m' b' := by
  obtain ⟨n, hn⟩ : ∃ n : ℝ, n = (d.map (fun _ => (1 : ℝ))).sum := ⟨_, rfl⟩
  obtain ⟨A, hA⟩ : ∃ A, A = (d.map (fun p => p.1)).sum := ⟨_, rfl⟩
  obtain ⟨B, hB⟩ : ∃ B, B = (d.map (fun p => p.2)).sum := ⟨_, rfl⟩
  have hne : ∃ p, p ∈ d := by obtain ⟨p, hp, -⟩ := h2; exact ⟨p, hp⟩
  have hnp : 0 < n := by
    rw [hn]
    obtain ⟨p, hp⟩ := hne
    exact sum_pos' (fun _ _ => by norm_num) ⟨p, hp, by norm_num⟩
  obtain ⟨xb, hxb⟩ : ∃ xb, xb = A / n := ⟨_, rfl⟩
  obtain ⟨V, hV⟩ : ∃ V, V = (d.map (fun p => (p.1 - xb) ^ 2)).sum := ⟨_, rfl⟩
  have hVp : 0 < V := by
    rw [hV]
    apply sum_pos' (fun _ _ => sq_nonneg _)
    obtain ⟨p, hp, q, hq, hpq⟩ := h2
    by_cases h : p.1 = xb
    · exact ⟨q, hq, by have : q.1 - xb ≠ 0 := fun h' => hpq (by linarith); positivity⟩
    · exact ⟨p, hp, by have : p.1 - xb ≠ 0 := sub_ne_zero.mpr h; positivity⟩
  obtain ⟨W, hW⟩ : ∃ W, W = (d.map (fun p => (p.1 - xb) * p.2)).sum := ⟨_, rfl⟩
  have hX0 : (d.map (fun p => p.1 - xb)).sum = 0 := by
    have := sum_add' (fun p => p.1) (fun p => -xb * 1) d
    rw [sum_mul' (-xb) (fun _ => 1), ← hA, ← hn, hxb] at this
    rw [show (fun p : ℝ × ℝ => p.1 - xb) = (fun p : ℝ × ℝ => p.1 + -xb * 1) from by funext p; ring, hxb, this]
    field_simp; ring
  obtain ⟨m, hm⟩ : ∃ m, m = W / V := ⟨_, rfl⟩
  obtain ⟨yb, hyb⟩ : ∃ yb, yb = B / n := ⟨_, rfl⟩
  refine ⟨m, yb - m * xb, fun m' b' => ?_⟩
  obtain ⟨c, hc⟩ : ∃ c, c = b' + m' * xb - yb := ⟨_, rfl⟩
  -- residuals in centred coordinates
  have key : misfit d m' b' = misfit d m (yb - m * xb) + ((m - m') ^ 2 * V + c ^ 2 * n) := by
    have hR1 : (d.map (fun p => (p.2 - yb - m * (p.1 - xb)) * (p.1 - xb))).sum = 0 := by
      have e : (fun p : ℝ × ℝ => (p.2 - yb - m * (p.1 - xb)) * (p.1 - xb)) =
          (fun p : ℝ × ℝ => (p.1 - xb) * p.2 + (-yb * (p.1 - xb) + -m * (p.1 - xb) ^ 2)) := by funext p; ring
      rw [e, sum_add' (fun p => (p.1 - xb) * p.2), sum_add' (fun p => -yb * (p.1 - xb)), sum_mul' (-yb) (fun p => p.1 - xb), sum_mul' (-m) (fun p => (p.1 - xb) ^ 2),
        ← hW, ← hV, hX0, hm]
      field_simp; ring
    have hR0 : (d.map (fun p => p.2 - yb - m * (p.1 - xb))).sum = 0 := by
      have e : (fun p : ℝ × ℝ => p.2 - yb - m * (p.1 - xb)) = (fun p : ℝ × ℝ => p.2 + (-yb * 1 + -m * (p.1 - xb))) := by funext p; ring
      rw [e, sum_add' (fun p => p.2), sum_add' (fun _ => -yb * 1), sum_mul' (-yb) (fun _ => 1), sum_mul' (-m) (fun p => p.1 - xb), ← hB, ← hn, hX0, hyb]
      field_simp; ring
    unfold misfit
    have e : (fun p : ℝ × ℝ => (p.2 - (m' * p.1 + b')) ^ 2) =
        (fun p : ℝ × ℝ => (p.2 - (m * p.1 + (yb - m * xb))) ^ 2 + (2 * (m - m') * ((p.2 - yb - m * (p.1 - xb)) * (p.1 - xb)) +
          (-2 * c * (p.2 - yb - m * (p.1 - xb)) + ((m - m') ^ 2 * (p.1 - xb) ^ 2 + (-2 * c * (m - m') * (p.1 - xb) + c ^ 2 * 1))))) := by
      funext p; rw [hc]; ring
    rw [e, sum_add' (fun p => (p.2 - (m * p.1 + (yb - m * xb))) ^ 2), sum_add' (fun p => 2 * (m - m') * ((p.2 - yb - m * (p.1 - xb)) * (p.1 - xb))),
      sum_add' (fun p => -2 * c * (p.2 - yb - m * (p.1 - xb))), sum_add' (fun p => (m - m') ^ 2 * (p.1 - xb) ^ 2),
      sum_add' (fun p => -2 * c * (m - m') * (p.1 - xb)),
      sum_mul' (2 * (m - m')) (fun p => (p.2 - yb - m * (p.1 - xb)) * (p.1 - xb)), sum_mul' (-2 * c) (fun p => p.2 - yb - m * (p.1 - xb)),
      sum_mul' ((m - m') ^ 2) (fun p => (p.1 - xb) ^ 2), sum_mul' (-2 * c * (m - m')) (fun p => p.1 - xb), sum_mul' (c ^ 2) (fun _ => 1),
      hR1, hR0, hX0, ← hV, ← hn]
    ring
  rw [key]
  have : 0 ≤ (m - m') ^ 2 * V + c ^ 2 * n := by positivity
  linarith

/-- non-vacuity: the specification of the slope is met -/
theorem lsq_nonvacuous : ∃ slope, IsLSQ slope := by
  have inj : ∀ d e : List (ℝ × ℝ), absc d = absc e → ordi d = ordi e → d = e := by
    intro d
    induction d with
    | nil => intro e h _; cases e with
      | nil => rfl
      | cons a e => simp [absc] at h
    | cons a d ih => intro e h h'; cases e with
      | nil => simp [absc] at h
      | cons c e =>
        unfold absc at h; unfold ordi at h'
        simp only [List.map_cons, List.cons.injEq, fin_inj] at h h'
        rw [ih e h.2 h'.2, Prod.ext h.1 h'.1]
  have ex : ∀ xs ys : List Fl, ∃ v : Fl, ∀ d, absc d = xs → ordi d = ys → TwoX d → ∃ m b, v = fin m ∧ ∀ m' b', misfit d m b ≤ misfit d m' b' := by
    intro xs ys
    by_cases h : ∃ d, absc d = xs ∧ ordi d = ys ∧ TwoX d
    · obtain ⟨d, h1, h2, h3⟩ := h
      obtain ⟨m, b, hmb⟩ := lsq_exists d h3
      refine ⟨fin m, fun e a1 a2 _ => ?_⟩
      rw [inj e d (a1.trans h1.symm) (a2.trans h2.symm)]
      exact ⟨m, b, rfl, hmb⟩
    · exact ⟨nan, fun e a1 a2 a3 => absurd ⟨e, a1, a2, a3⟩ h⟩
  choose slope hslope using ex
  exact ⟨slope, fun d h => hslope _ _ d rfl rfl h⟩

theorem foldl_minimum_fin (a : ℝ) (l : List ℝ) :
    ∃ v, (l.map fin).foldl Fl.minimum (fin a) = fin v ∧ (v = a ∨ v ∈ l) ∧ v ≤ a ∧ ∀ b ∈ l, v ≤ b := by
  induction l generalizing a with
  | nil => exact ⟨a, rfl, Or.inl rfl, le_rfl, by simp⟩
  | cons c l ih =>
    obtain ⟨v, h1, h2, h3, h4⟩ := ih (min a c)
    refine ⟨v, ?_, ?_, h3.trans (min_le_left _ _), ?_⟩
    · rw [← h1]
      simp only [List.map_cons, List.foldl_cons]
      congr 1
      by_cases h : a ≤ c
      · simp [Fl.minimum, min_eq_left h, h, Fl.isNaN]
      · simp [Fl.minimum, min_eq_right (not_le.mp h).le, h, Fl.isNaN]
    · rcases h2 with h2 | h2
      · rcases min_choice a c with h | h
        · left; rw [h2, h]
        · right; simp [h2, h]
      · right; simp [h2]
    · intro b hb
      rcases List.mem_cons.mp hb with rfl | hb
      · exact h3.trans (min_le_right _ _)
      · exact h4 b hb

/-- `v` is the smallest abscissa -/
def IsLeft (xs : List ℝ) (v : ℝ) : Prop := v ∈ xs ∧ ∀ t ∈ xs, v ≤ t

theorem npMin_fin (l : List ℝ) (hl : l ≠ []) : ∃ v, npMin (l.map fin) = fin v ∧ IsLeft l v := by
  cases l with
  | nil => exact absurd rfl hl
  | cons a l =>
    obtain ⟨v, h1, h2, h3, h4⟩ := foldl_minimum_fin a l
    refine ⟨v, h1, ?_, ?_⟩
    · rcases h2 with h | h
      · simp [h]
      · simp [h]
    · intro b hb
      rcases List.mem_cons.mp hb with rfl | hb
      · exact h3
      · exact h4 b hb

/-- noise-free saturation data: from `(x1, 0)` straight to the hinge `(xh, yh)`, then on with slope `m2` -/
def onSaturation (xh yh x1 m2 : ℝ) (t : ℝ) : ℝ := if t < xh then yh / (xh - x1) * (t - x1) else yh + m2 * (t - xh)

/-- the abscissae below / not below the hinge -/
def belowX (xh : ℝ) (xs : List ℝ) : List ℝ := xs.filter (fun t => decide (t < xh))
def aboveX (xh : ℝ) (xs : List ℝ) : List ℝ := xs.filter (fun t => decide (xh ≤ t))

/-- what the guess is on noise-free data, whatever the steepness -/
theorem hingeSat_on (slope : List Fl → List Fl → Fl) (hs : IsLSQ slope) (xs : List ℝ) (xh yh x1 m2 : ℝ) (hx : xh ≠ x1) (hn : 4 ≤ xs.length)
    (h2 : ∃ s ∈ belowX xh xs, ∃ t ∈ belowX xh xs, s ≠ t) (hr : GoodSide (aboveX xh xs)) :
    hingeSatP0 slope (fin xh, fin yh) (xs.map fin) (xs.map (fun t => fin (onSaturation xh yh x1 m2 t))) =
      .ok [fin xh, fin yh, (if 1e-10 < |yh / (xh - x1)| then fin x1 else npMin (xs.map fin)), fin m2] := by
  obtain ⟨e1, e2⟩ := sel_side (fun t => Fl.lt t (fin xh)) (· < xh) (fun t => lt_fin t xh) (onSaturation xh yh x1 m2)
    (fun t => yh / (xh - x1) * (t - x1)) xs (fun t ht => by simp [onSaturation, ht])
  obtain ⟨e3, e4⟩ := sel_side (fun t => Fl.le (fin xh) t) (xh ≤ ·) (fun t => le_fin xh t) (onSaturation xh yh x1 m2)
    (fun t => yh + m2 * (t - xh)) xs (fun t ht => by simp [onSaturation, not_lt.mpr ht])
  obtain ⟨d, hd⟩ : ∃ d : List (ℝ × ℝ), d = (belowX xh xs).map (fun t => (t, yh / (xh - x1) * (t - x1))) := ⟨_, rfl⟩
  have ea : (belowX xh xs).map fin = absc d := by rw [hd]; simp [absc, Function.comp_def]
  have eo : (belowX xh xs).map (fun t => fin (yh / (xh - x1) * (t - x1))) = ordi d := by rw [hd]; simp [ordi, Function.comp_def]
  have htwo : TwoX d := by
    obtain ⟨s, hs, t, ht, hst⟩ := h2
    rw [hd]
    exact ⟨_, List.mem_map_of_mem hs, _, List.mem_map_of_mem ht, hst⟩
  have hlsq := lsq_line hs htwo (yh / (xh - x1)) (-(yh / (xh - x1)) * x1) (by
    rw [hd]; intro p hp
    obtain ⟨t, -, rfl⟩ := List.mem_map.mp hp
    simp only; ring)
  have hlen : 2 ≤ (absc d).length := by
    obtain ⟨s, hs, t, ht, hst⟩ := h2
    rw [← ea, List.length_map]
    by_contra hc
    match hb : belowX xh xs, hs, ht with
    | [], hs, _ => simp at hs
    | [a], hs, ht =>
      simp only [List.mem_singleton] at hs ht
      exact hst (hs.trans ht.symm)
    | a :: c :: l, _, _ => rw [hb] at hc; simp at hc
  unfold belowX at ea eo
  have em2 : npMedian (List.zipWith (· / ·) (ediff1d ((aboveX xh xs).map (fun t => fin (yh + m2 * (t - xh))))) (ediff1d ((aboveX xh xs).map fin))) = fin m2 := by
    apply npMedian_const _ _ (slopes_ne_nil hr _)
    have e : (fun t => fin (yh + m2 * (t - xh))) = (fun t => fin (m2 * t + (yh - m2 * xh))) := by funext t; congr 1; ring
    rw [e]
    exact ediff1d_line _ _ _ hr.dxOk
  unfold hingeSatP0
  rw [if_neg (by simp; omega)]
  simp only [e1, e2, e3, e4]
  unfold aboveX at em2
  have hl2 : 2 ≤ ((xs.filter (fun t => decide (xh ≤ t))).map fin).length := by simpa [aboveX] using hr.1
  rw [ea, eo, hlsq, if_pos hlen, if_pos hl2, em2]
  have hc : Fl.lt (fin 1e-10) (Fl.abs (fin (yh / (xh - x1)))) ↔ 1e-10 < |yh / (xh - x1)| := by simp only [Fl.abs, lt_fin]
  simp only [hc]
  by_cases h : 1e-10 < |yh / (xh - x1)|
  · rw [if_pos h, if_pos h]
    have hne : yh / (xh - x1) ≠ 0 := by
      intro h0; rw [h0] at h; norm_num at h
    have hy : yh ≠ 0 := fun h0 => hne (by rw [h0]; simp)
    have hxx : xh - x1 ≠ 0 := sub_ne_zero.mpr hx
    rw [fin_div _ _ hne, fin_sub]
    have : xh - yh / (yh / (xh - x1)) = x1 := by field_simp; ring
    rw [this]
  · rw [if_neg h, if_neg h]

/-- C180: on noise-free saturation data with the true hinge as guess the initial guess is exact, if the rise is steeper than 1e-10 -/
theorem C180_exact (slope : List Fl → List Fl → Fl) (hs : IsLSQ slope) (xs : List ℝ) (xh yh x1 m2 : ℝ) (hx : xh ≠ x1) (hn : 4 ≤ xs.length)
    (h2 : ∃ s ∈ belowX xh xs, ∃ t ∈ belowX xh xs, s ≠ t) (hr : GoodSide (aboveX xh xs)) (hst : 1e-10 < |yh / (xh - x1)|) :
    hingeSatP0 slope (fin xh, fin yh) (xs.map fin) (xs.map (fun t => fin (onSaturation xh yh x1 m2 t))) =
      .ok [fin xh, fin yh, fin x1, fin m2] := by
  rw [hingeSat_on slope hs xs xh yh x1 m2 hx hn h2 hr, if_pos hst]

/-- C180 (violated): the threshold is absolute, so the guess depends on the unit of the ordinate: the same data in a unit large enough
have the smallest abscissa as intercept guess, wherever the line really meets the axis -/
theorem C180_unit (slope : List Fl → List Fl → Fl) (hs : IsLSQ slope) (xs : List ℝ) (xh yh x1 m2 : ℝ) (hx : xh ≠ x1) (hy : yh ≠ 0) (hn : 4 ≤ xs.length)
    (h2 : ∃ s ∈ belowX xh xs, ∃ t ∈ belowX xh xs, s ≠ t) (hr : GoodSide (aboveX xh xs)) :
    ∃ u0 > 0, ∃ left, IsLeft xs left ∧
      (∀ u, u0 < u → hingeSatP0 slope (fin xh, fin (u * yh)) (xs.map fin) (xs.map (fun t => fin (u * onSaturation xh yh x1 m2 t))) =
        .ok [fin xh, fin (u * yh), fin x1, fin (u * m2)]) ∧
      (∀ u, 0 < u → u ≤ u0 → hingeSatP0 slope (fin xh, fin (u * yh)) (xs.map fin) (xs.map (fun t => fin (u * onSaturation xh yh x1 m2 t))) =
        .ok [fin xh, fin (u * yh), fin left, fin (u * m2)]) := by
  have hxx : xh - x1 ≠ 0 := sub_ne_zero.mpr hx
  have hm : 0 < |yh / (xh - x1)| := abs_pos.mpr (div_ne_zero hy hxx)
  obtain ⟨left, hl1, hl2⟩ := npMin_fin xs (by rintro rfl; simp at hn)
  have hsc : ∀ u t, u * onSaturation xh yh x1 m2 t = onSaturation xh (u * yh) x1 (u * m2) t := by
    intro u t
    unfold onSaturation
    split
    · ring
    · ring
  have habs : ∀ u : ℝ, 0 < u → |u * yh / (xh - x1)| = u * |yh / (xh - x1)| := by
    intro u hu
    rw [mul_div_assoc, abs_mul, abs_of_pos hu]
  refine ⟨1e-10 / |yh / (xh - x1)|, by positivity, left, hl2, fun u hu => ?_, fun u hu0 hu => ?_⟩
  · have hu0 : 0 < u := lt_trans (by positivity) hu
    simp only [hsc]
    rw [hingeSat_on slope hs xs xh (u * yh) x1 (u * m2) hx hn h2 hr, if_pos]
    rw [habs u hu0]
    exact (div_lt_iff₀ hm).mp hu
  · simp only [hsc]
    rw [hingeSat_on slope hs xs xh (u * yh) x1 (u * m2) hx hn h2 hr, if_neg, hl1]
    rw [habs u hu0]
    exact not_lt.mpr ((le_div_iff₀ hm).mp hu)

/-- C180: with fewer than two points below the hinge the intercept guess is the smallest abscissa, with fewer than two above it the plateau
slope guess is zero; hinge position and height are always the user's -/
theorem C180_few (slope : List Fl → List Fl → Fl) (xs : List ℝ) (f : ℝ → ℝ) (xh yh : ℝ) (hn : 4 ≤ xs.length) :
    ∃ a b left, hingeSatP0 slope (fin xh, fin yh) (xs.map fin) (xs.map (fun t => fin (f t))) = .ok [fin xh, fin yh, a, b] ∧ IsLeft xs left ∧
      ((belowX xh xs).length < 2 → a = fin left) ∧ ((aboveX xh xs).length < 2 → b = fin 0) := by
  obtain ⟨left, hl1, hl2⟩ := npMin_fin xs (by rintro rfl; simp at hn)
  obtain ⟨e1, -⟩ := sel_side (fun t => Fl.lt t (fin xh)) (· < xh) (fun t => lt_fin t xh) f f xs (fun _ _ => rfl)
  obtain ⟨e3, -⟩ := sel_side (fun t => Fl.le (fin xh) t) (xh ≤ ·) (fun t => le_fin xh t) f f xs (fun _ _ => rfl)
  unfold hingeSatP0
  rw [if_neg (by simp; omega)]
  refine ⟨_, _, left, rfl, hl2, ?_, ?_⟩
  · intro h
    simp only [e1]
    rw [if_neg (by simpa [belowX] using h), hl1]
  · intro h
    simp only [e3]
    rw [if_neg (by simpa [aboveX] using h)]

/-- C180: the intercepts reported for a hinge at a point are where its two lines cross zero -/
theorem C180_intercepts (xh yh m1 m2 : ℝ) (h1 : m1 ≠ 0) (h2 : m2 ≠ 0) :
    ∃ a b, hingeAtPointX (fin xh) (fin yh) (fin m1) (fin m2) = (fin a, fin b) ∧ yh + m1 * (a - xh) = 0 ∧ yh + m2 * (b - xh) = 0 := by
  refine ⟨xh - yh / m1, xh - yh / m2, ?_, ?_, ?_⟩
  · simp [hingeAtPointX, fin_div _ _ h1, fin_div _ _ h2]
  · field_simp; ring
  · field_simp; ring

/-- non-vacuity: rise to (4, 6) from (1, 0), then slope 1/2 -/
example : ∃ xs : List ℝ, 4 ≤ xs.length ∧ (∃ s ∈ belowX 4 xs, ∃ t ∈ belowX 4 xs, s ≠ t) ∧ GoodSide (aboveX 4 xs) ∧ (1e-10 : ℝ) < |6 / (4 - 1)| := by
  have ha : aboveX 4 [2, 3, 5, 6] = [5, 6] := by unfold aboveX; norm_num [List.filter]
  refine ⟨[2, 3, 5, 6], by simp, ⟨2, by norm_num [belowX], 3, by norm_num [belowX], by norm_num⟩, ?_, by norm_num⟩
  rw [ha]
  refine ⟨by simp, ?_⟩
  intro k hk
  have : k = 0 := by simp at hk; omega
  subst this
  norm_num

/-! ### C181: exponential, power-law and Moyal fits -/

theorem mean_ordi (d : List (ℝ × ℝ)) (h : d ≠ []) : npMean (ordi d) = fin (tot d / d.length) := by
  have hl : (d.length : ℝ) ≠ 0 := by simpa using h
  unfold npMean
  rw [show npSum (ordi d) = fin (tot d) from sumF (fun p => rfl) d]
  simp [ordi, fin_div _ _ hl]

/-- C181: the guess of an exponential decay is always rate one with the highest datum as the height at zero (and no offset) -/
theorem C181_exponential (d : List (ℝ × ℝ)) (hn : 3 ≤ d.length) :
    ∃ h, IsTop d h ∧ exponentialP0 (absc d) (ordi d) = .ok [fin 1, fin h] ∧ exponentialPlusCP0 (absc d) (ordi d) = .ok [fin 1, fin h, fin 0] ∧
      exponentialF (fin 0) (fin 1) (fin h) = fin h ∧ exponentialPlusCF (fin 0) (fin 1) (fin h) (fin 0) = fin h := by
  obtain ⟨h, e, ht⟩ := top d (by rintro rfl; simp at hn)
  refine ⟨h, ht, ?_, ?_, ?_, ?_⟩
  · unfold exponentialP0; rw [if_neg (by rw [len_absc]; omega), e]
  · unfold exponentialPlusCP0; rw [if_neg (by rw [len_absc]; omega), e]
  · have : -(fin 1 * fin 0 : Fl) = fin 0 := by rw [fin_mul]; show fin (-(1 * 0)) = _; norm_num
    unfold exponentialF
    rw [this, exp_fin, fin_mul]; simp
  · have : -(fin 1 * fin 0 : Fl) = fin 0 := by rw [fin_mul]; show fin (-(1 * 0)) = _; norm_num
    unfold exponentialPlusCF
    rw [this, exp_fin, fin_mul, fin_add]; simp

/-- C181 (violated): on noise-free decays the guess is exact only when the rate is one and the data start at zero -/
theorem C181_exponential_exact (xs : List ℝ) (A c : ℝ) (hA : 0 < A) (hc : 0 < c) (hn : 2 ≤ xs.length) :
    exponentialP0 (xs.map fin) (xs.map (fun t => fin (A * Real.exp (-(c * t))))) = .ok [fin c, fin A] ↔ c = 1 ∧ IsLeft xs 0 := by
  have hne : xs ≠ [] := by rintro rfl; simp at hn
  obtain ⟨h, e, ⟨hm, htop⟩⟩ := npMax_fin (xs.map (fun t => A * Real.exp (-(c * t)))) (by simpa using hne)
  have e' : npMax (xs.map (fun t => fin (A * Real.exp (-(c * t))))) = fin h := by rw [← e]; simp [Function.comp_def]
  unfold exponentialP0
  rw [if_neg (by simp; omega), e']
  simp only [Except.ok.injEq, List.cons.injEq, fin_inj, and_true]
  constructor
  · rintro ⟨h1, h2⟩
    refine ⟨h1.symm, ?_⟩
    obtain ⟨t, ht, hte⟩ := List.mem_map.mp hm
    have ht0 : t = 0 := by
      have : Real.exp (-(c * t)) = 1 := by
        have : A * Real.exp (-(c * t)) = A * 1 := by rw [hte, h2]; ring
        exact mul_left_cancel₀ hA.ne' this
      rw [Real.exp_eq_one_iff] at this
      have : c * t = 0 := by linarith
      exact (mul_eq_zero.mp this).resolve_left hc.ne'
    refine ⟨ht0 ▸ ht, fun s hs => ?_⟩
    have := htop _ (List.mem_map_of_mem hs)
    rw [h2] at this
    have h3 : Real.exp (-(c * s)) ≤ 1 := by
      by_contra hcon
      have : A * 1 < A * Real.exp (-(c * s)) := mul_lt_mul_of_pos_left (not_le.mp hcon) hA
      linarith
    rw [Real.exp_le_one_iff] at h3
    by_contra hs0
    have : c * s < 0 := mul_neg_of_pos_of_neg hc (not_le.mp hs0)
    linarith
  · rintro ⟨h1, h2, h3⟩
    refine ⟨h1.symm, le_antisymm ?_ ?_⟩
    · obtain ⟨t, ht, hte⟩ := List.mem_map.mp hm
      rw [← hte]
      have : Real.exp (-(c * t)) ≤ 1 := Real.exp_le_one_iff.mpr (by have := mul_nonneg hc.le (h3 t ht); linarith)
      calc A * Real.exp (-(c * t)) ≤ A * 1 := mul_le_mul_of_nonneg_left this hA.le
        _ = A := mul_one A
    · have := htop _ (List.mem_map_of_mem h2)
      simpa using this

/-- C181 (violated): the rate guess of a cumulative exponential is the mean ordinate: multiplying the data by a constant multiplies it,
stretching the abscissa leaves it, where the rate of the curve behaves the other way round -/
theorem C181_cdf (d : List (ℝ × ℝ)) (hn : d ≠ []) (u v : ℝ) :
    ∃ c, c * d.length = tot d ∧ exponentialCDFP0 (absc d) (ordi d) = .ok [fin c] ∧
      exponentialCDFP0 (absc (d.map (fun p => (v * p.1, u * p.2)))) (ordi (d.map (fun p => (v * p.1, u * p.2)))) = .ok [fin (u * c)] ∧
      (∀ y0 c' t, v ≠ 0 → ∃ w, exponentialCDF (some (fin (u * y0))) (fin (v * t)) (fin (c' / v)) = .ok (fin (u * w)) ∧
        exponentialCDF (some (fin y0)) (fin t) (fin c') = .ok (fin w)) := by
  have hl : (d.length : ℝ) ≠ 0 := by simpa using hn
  have hpos : 0 < d.length := List.length_pos_iff.mpr hn
  refine ⟨tot d / d.length, by field_simp, ?_, ?_, ?_⟩
  · unfold exponentialCDFP0; rw [if_neg (by rw [len_absc]; omega), mean_ordi d hn]
  · unfold exponentialCDFP0
    rw [if_neg (by rw [len_absc, List.length_map]; omega), mean_ordi _ (by simpa using hn)]
    have : tot (d.map (fun p => (v * p.1, u * p.2))) = u * tot d := by
      unfold tot
      rw [← sum_mul' u (fun p => p.2)]
      simp [Function.comp_def]
    rw [this, List.length_map, mul_div_assoc]
  · intro y0 c' t hv
    refine ⟨y0 * (1 - Real.exp (-(c' * t))), ?_, ?_⟩
    · have e1 : c' / v * (v * t) = c' * t := by field_simp
      have e2 : -(fin (c' / v) * fin (v * t) : Fl) = fin (-(c' * t)) := by rw [fin_mul, e1]; rfl
      unfold exponentialCDF
      simp only []
      rw [e2, exp_fin, fin_sub, fin_mul, mul_assoc]
    · have e2 : -(fin c' * fin t : Fl) = fin (-(c' * t)) := by rw [fin_mul]; rfl
      unfold exponentialCDF
      simp only []
      rw [e2, exp_fin, fin_sub, fin_mul]

/-- C181: the guess of a power law is the identity, whatever the data -/
theorem C181_power (xs : List ℝ) (hn : 3 ≤ xs.length) :
    powerLawP0 (xs.map fin) = .ok [fin 1, fin 1] ∧ powerLaw3P0 (xs.map fin) = .ok [fin 1, fin 1, fin 0] ∧
    (∀ t : ℝ, 0 < t → powerLawF (fin t) (fin 1) 1 = fin t ∧ powerLawPlusCF (fin t) (fin 1) 1 (fin 0) = fin t ∧
      powerLawOffCenterF (fin t) (fin 1) 1 (fin 0) = fin t) := by
  refine ⟨?_, ?_, ?_⟩
  · unfold powerLawP0; rw [if_neg (by simp; omega)]
  · unfold powerLaw3P0; rw [if_neg (by simp; omega)]
  · intro t ht
    have hp : Fl.rpow (fin t) 1 = fin t := by rw [rpow_fin _ _ ht]; simp
    refine ⟨?_, ?_, ?_⟩
    · unfold powerLawF; rw [hp]; simp
    · unfold powerLawPlusCF; rw [hp]; simp
    · unfold powerLawOffCenterF; rw [fin_sub, sub_zero, hp]; simp

/-- C181: the guess of a Moyal curve is centre, spread and highest ordinate of the data; (violated) the guessed curve does not have that
height at its centre: it reaches between 70 % and 90 % of it -/
theorem C181_moyal (d : List (ℝ × ℝ)) (hn : 3 ≤ d.length) (hy : ∀ p ∈ d, 0 ≤ p.2) (hpos : ∃ p ∈ d, 0 < p.2) :
    ∃ mu s h, moyalP0 (absc d) (ordi d) = .ok [fin mu, fin s, fin h] ∧ IsCentre d mu ∧ IsSpread d mu s ∧ IsTop d h ∧ 0 < h ∧
      (s ≠ 0 → ∃ v, moyalF (fin mu) (fin mu) (fin s) (fin h) = fin v ∧ 0.7 * h < v ∧ v < 0.9 * h) := by
  obtain ⟨mu, s, a1, a2, a3, a4⟩ := stats d hy (tot_pos hy hpos)
  obtain ⟨h, e, ht⟩ := top d (by rintro rfl; simp at hn)
  have hh : 0 < h := by obtain ⟨p, hp, h0⟩ := hpos; exact lt_of_lt_of_le h0 (ht.2 p hp)
  refine ⟨mu, s, h, ?_, a3, a4, ht, hh, ?_⟩
  · unfold moyalP0; rw [if_neg (by rw [len_absc]; omega), a1, a2, e]
  · intro hs
    obtain ⟨E, hE⟩ : ∃ E, E = Real.exp (-(1 / 2)) := ⟨_, rfl⟩
    have hE2 : E * E * Real.exp 1 = 1 := by
      rw [hE, ← Real.exp_add, ← Real.exp_add]; norm_num
    have hE0 : 0 < E := by rw [hE]; exact Real.exp_pos _
    have hlo : 0.6 < E := by
      by_contra hc
      have hc := not_lt.mp hc
      have h1 : E * E ≤ 0.6 * 0.6 := mul_le_mul hc hc hE0.le (by norm_num)
      have h2 : E * E * Real.exp 1 ≤ 0.6 * 0.6 * 2.7182818286 := mul_le_mul h1 Real.exp_one_lt_d9.le (Real.exp_pos _).le (by norm_num)
      rw [hE2] at h2; norm_num at h2
    have hhi : E < 0.61 := by
      by_contra hc
      have hc := not_lt.mp hc
      have h1 : 0.61 * 0.61 ≤ E * E := mul_le_mul hc hc (by norm_num) hE0.le
      have h2 : 0.61 * 0.61 * 2.7182818283 ≤ E * E * Real.exp 1 := mul_le_mul h1 Real.exp_one_gt_d9.le (by norm_num) (by positivity)
      rw [hE2] at h2; norm_num at h2
    refine ⟨h * (Real.exp E - 1), ?_, ?_, ?_⟩
    · unfold moyalF
      have e1 : Fl.sq ((fin mu - fin mu) / fin s) = fin 0 := by rw [fin_sub, fin_div _ _ hs]; simp
      simp only []
      rw [e1, exp_fin, fin_sub, fin_mul, exp_fin, exp_fin, fin_sub, fin_mul, Real.exp_zero]
      have : (1 / 2 * (0 - 1) : ℝ) = -(1 / 2) := by norm_num
      rw [hE, this]
    · have := Real.quadratic_le_exp_of_nonneg hE0.le
      have h3 : 0.7 < Real.exp E - 1 := by nlinarith
      nlinarith
    · -- exp 0.61 < 1.9
      have h3 : Real.exp E < 1.9 := by
        have hx : Real.exp E ≤ Real.exp 0.61 := Real.exp_le_exp.mpr hhi.le
        have hb := Real.exp_bound' (x := 0.61) (by norm_num) (by norm_num) (n := 4) (by norm_num)
        have hb2 : Real.exp 0.61 < 1.9 := lt_of_le_of_lt hb (by norm_num [Finset.sum_range_succ, Nat.factorial])
        exact lt_of_le_of_lt hx hb2
      nlinarith

/-- C181: too few points for the number of parameters are refused, and the cut composites need the position guess -/
theorem C181_refused (slope : List Fl → List Fl → Fl) (g : Fl) (gs : Fl × Fl) (x y : List Fl) :
    (exponentialP0 x y = .error .insufficientData ↔ x.length < 2) ∧ (exponentialPlusCP0 x y = .error .insufficientData ↔ x.length < 3) ∧
    (exponentialCDFP0 x y = .error .insufficientData ↔ x = []) ∧ (powerLawP0 x = .error .insufficientData ↔ x.length < 2) ∧
    (powerLaw3P0 x = .error .insufficientData ↔ x.length < 3) ∧ (moyalP0 x y = .error .insufficientData ↔ x.length < 3) ∧
    (gaussTimesP0 g x y = .error .insufficientData ↔ x.length < 4) ∧ (hingeSatP0 slope gs x y = .error .insufficientData ↔ x.length < 4) ∧
    (gaussTimesPlusP0 g x y = .error .insufficientData ↔ x.length < 5) ∧ (gaussPlusP0 x y = .error .insufficientData ↔ x.length < 6) ∧
    compositeInit none = .error .valueError ∧ compositeInit (some g) = .ok g := by
  refine ⟨?_, ?_, ?_, ?_, ?_, ?_, ?_, ?_, ?_, ?_, rfl, rfl⟩
  · unfold exponentialP0; split <;> simp_all
  · unfold exponentialPlusCP0; split <;> simp_all
  · unfold exponentialCDFP0
    by_cases h : x = []
    · simp [h]
    · simp [h]
  · unfold powerLawP0; split <;> simp_all
  · unfold powerLaw3P0; split <;> simp_all
  · unfold moyalP0; split <;> simp_all
  · unfold gaussTimesP0
    by_cases h : x.length < 4
    · rw [if_pos h]; simp [h]
    · rw [if_neg h]
      simp only [h, iff_false]
      split <;> simp
  · unfold hingeSatP0
    by_cases h : x.length < 4
    · rw [if_pos h]; simp [h]
    · rw [if_neg h]; simp [h]
  · unfold gaussTimesPlusP0
    by_cases h : x.length < 5
    · rw [if_pos h]; simp [h]
    · rw [if_neg h]
      simp only [h, iff_false]
      split <;> simp
  · unfold gaussPlusP0
    by_cases h : x.length < 6
    · rw [if_pos h]; simp [h]
    · rw [if_neg h]; simp [h]

/-- non-vacuity: data with weight and three points; a decay of rate two from one on is not guessed -/
example : ¬ (exponentialP0 ([1, 2].map fin) ([1, 2].map (fun t => fin (3 * Real.exp (-(2 * t))))) = .ok [fin 2, fin 3]) := by
  rw [C181_exponential_exact [1, 2] 3 2 (by norm_num) (by norm_num) (by simp)]
  norm_num

end
end SW
