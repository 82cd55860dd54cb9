import Verif.Props.Instability
import Mathlib.Tactic.IntervalCases

/-!
# Property C224: colours and names of the stability bins
-/

namespace SW
namespace Insta
noncomputable section
open Classical

/-! ### Specification -/

/-- what the bins are called -/
def nameOf : Int → Option String
  | 4 => some "MM"
  | 3 => some "Between\nAIC &\nMM"
  | 2 => some "Stable"
  | 1 => some "Between\nFMW &\nOFI"
  | 0 => some "OFI"
  | _ => none

/-- the five colours, as entries of the twelve of "Paired" -/
def paired : List Nat := [0, 3, 6, 9, 11]

/-! ### proofs -/

theorem limits : normLimits = (-1 / 2, 9 / 2) := by
  have h1 : (stabilityMap.map (·.1)).foldl min 4 = 0 := by decide
  have h2 : (stabilityMap.map (·.1)).foldl max 4 = 4 := by decide
  unfold normLimits
  rw [h1, h2]; norm_num

theorem floor_eq (x : ℝ) (n : ℕ) (h1 : (n : ℝ) ≤ x) (h2 : x < n + 1) : ⌊x⌋₊ = n := (Nat.floor_eq_iff (by have : (0:ℝ) ≤ n := Nat.cast_nonneg n; linarith)).2 ⟨h1, h2⟩

theorem resample_eq (i : Nat) (hi : i < 5) : resampled 12 5 i = some (paired.getD i 0) := by
  unfold resampled colourIndex
  interval_cases i
  · rw [if_neg (by norm_num), if_neg (by norm_num), floor_eq _ 0 (by norm_num) (by norm_num)]; rfl
  · rw [if_neg (by norm_num), if_neg (by norm_num), floor_eq _ 3 (by norm_num) (by norm_num)]; rfl
  · rw [if_neg (by norm_num), if_neg (by norm_num), floor_eq _ 6 (by norm_num) (by norm_num)]; rfl
  · rw [if_neg (by norm_num), if_neg (by norm_num), floor_eq _ 9 (by norm_num) (by norm_num)]; rfl
  · rw [if_neg (by norm_num), if_pos (by norm_num)]; rfl

/-- **C224** Names: the ticks are the five bins in increasing order, each tick is labelled with the name of its bin (and with no other
text), a position that is not a bin has no label (KeyError); the inverse map gives back exactly the bin of every name. -/
theorem C224_names :
    ticks = [0, 1, 2, 3, 4] ∧ (∀ k : Int, 0 ≤ k → k ≤ 4 → ∃ n, nameOf k = some n ∧ tickText (k : ℝ) = .ok n) ∧
    (∀ v : ℝ, (∀ k : Int, 0 ≤ k → k ≤ 4 → v ≠ k) → tickText v = .error .keyError) ∧
    (∀ (n : String) (k : Int), (n, k) ∈ stabilityMapInverse ↔ nameOf k = some n) ∧
    (stabilityMapInverse.map (·.1)).Nodup := by
  refine ⟨by decide +kernel, ?_, ?_, ?_, by decide +kernel⟩
  · intro k h0 h4
    have hk : k = 0 ∨ k = 1 ∨ k = 2 ∨ k = 3 ∨ k = 4 := by omega
    unfold tickText stabilityMap
    rcases hk with rfl | rfl | rfl | rfl | rfl <;> refine ⟨_, rfl, ?_⟩ <;> norm_num [List.find?]
  · intro v hv
    unfold tickText
    have : stabilityMap.find? (fun kv => decide ((kv.1 : ℝ) = v)) = none := by
      rw [List.find?_eq_none]
      intro kv hkv
      have : 0 ≤ kv.1 ∧ kv.1 ≤ 4 := by
        revert kv; decide
      simp only [decide_eq_true_eq]
      exact fun h => hv kv.1 this.1 this.2 h.symm
    rw [this]
  · intro n k
    unfold stabilityMapInverse stabilityMap nameOf
    simp only [List.map_cons, List.map_nil, List.mem_cons, Prod.mk.injEq, List.not_mem_nil, or_false]
    constructor
    · rintro (⟨rfl, rfl⟩ | ⟨rfl, rfl⟩ | ⟨rfl, rfl⟩ | ⟨rfl, rfl⟩ | ⟨rfl, rfl⟩) <;> rfl
    · intro h
      split at h <;> first | (obtain rfl := Option.some.inj h; simp) | cases h

/-- **C224** Colours (matplotlib before 3.9): a value nearer to bin `k` than to any other is drawn in the colour of bin `k`, so the band of
each colour on the bar is centred on the tick with the bin's name; different bins have different colours; outside -0.5 … 4.5 none. -/
theorem C224_colours (mpl : Nat × Nat) (hm : mpl.1 < 3 ∨ (mpl.1 = 3 ∧ mpl.2 < 9)) :
    (∀ (v : ℝ) (k : Nat), k < 5 → (k : ℝ) - 1 / 2 ≤ v → v < k + 1 / 2 → colourOf mpl v = .ok (some (paired.getD k 0))) ∧
    paired.Nodup ∧ (∀ v : ℝ, v < -1 / 2 ∨ 9 / 2 < v → colourOf mpl v = .ok none) ∧ cbarKwargs mpl = .ok [0, 1, 2, 3, 4] := by
  have hl : stabilityMap.length = 5 := rfl
  refine ⟨?_, by decide, ?_, ?_⟩
  · intro v k hk h1 h2
    unfold colourOf normalize
    rw [limits, hl]
    simp only
    have hx : colourIndex 5 ((v - -1 / 2) / (9 / 2 - -1 / 2)) = some k := by
      unfold colourIndex
      have hk0 : (0:ℝ) ≤ k := Nat.cast_nonneg k
      have hk4 : (k:ℝ) ≤ 4 := by exact_mod_cast (by omega : k ≤ 4)
      have e : (v - -1 / 2) / (9 / 2 - -1 / 2) = (v + 1 / 2) / 5 := by ring
      rw [e, if_neg (by push Not; constructor <;> linarith), if_neg (by intro h; linarith),
        floor_eq _ k (by push_cast; linarith) (by push_cast; linarith)]
    rw [hx]
    simp only
    unfold cmapEntry
    rw [if_pos hm, hl, resample_eq k hk]
  · intro v hv
    unfold colourOf normalize
    rw [limits, hl]
    have hx : colourIndex 5 ((v - -1 / 2) / (9 / 2 - -1 / 2)) = none := by
      unfold colourIndex
      rw [if_pos]
      rcases hv with h | h
      · left; linarith
      · right; linarith
    simp only [hx]
    unfold cmapEntry
    rw [if_pos hm]; rfl
  · unfold cbarKwargs cmapEntry
    rw [if_pos hm, C224_names.1]; rfl

/-- **C224** (violated: the colour bar of a stability condition can be drawn.)  From matplotlib 3.9 on neither colours nor the settings of
the colour bar are available. -/
theorem C224_mpl39 (mpl : Nat × Nat) (hm : 3 < mpl.1 ∨ (mpl.1 = 3 ∧ 9 ≤ mpl.2)) (v : ℝ) :
    cbarKwargs mpl = .error .attributeError ∧ colourOf mpl v = .error .attributeError := by
  have hn : ¬ (mpl.1 < 3 ∨ (mpl.1 = 3 ∧ mpl.2 < 9)) := by omega
  have h : ∀ i, cmapEntry mpl i = .error .attributeError := fun i => by unfold cmapEntry; rw [if_neg hn]
  refine ⟨by unfold cbarKwargs; rw [h]; rfl, ?_⟩
  unfold colourOf
  split
  · exact h _
  · rw [h]; rfl

/-- **C224** Every row of a stability condition (non-negative or missing beta) is drawn, in the colour whose tick names what the row is:
"MM" exactly when it exceeds the mirror threshold, and so on. -/
theorem C224_row (mpl : Nat × Nat) (hm : mpl.1 < 3 ∨ (mpl.1 = 3 ∧ mpl.2 < 9)) {g : Int} {p : Kind → Abc} (h : params g = .ok p)
    (beta ani : Fl) (hb : ¬ Fl.lt beta 0) :
    ∃ (b : Int) (c : Nat) (n : String), stability 1 g beta ani = .ok b ∧ colourOf mpl (b : ℝ) = .ok (some c) ∧ c ∈ paired ∧ tickText (b : ℝ) = .ok n ∧
      (n = "MM" ↔ Exceeds p beta ani .MM) ∧ (n = "Between\nAIC &\nMM" ↔ (Exceeds p beta ani .AIC ∧ ¬ Exceeds p beta ani .MM)) ∧
      (n = "OFI" ↔ Exceeds p beta ani .OFI) ∧ (n = "Between\nFMW &\nOFI" ↔ (Exceeds p beta ani .FMW ∧ ¬ Exceeds p beta ani .OFI)) ∧
      (n = "Stable" ↔ ∀ k, ¬ Exceeds p beta ani k) := by
  obtain ⟨b, e, h4, h3, h0, h1, h2, hr, -, -⟩ := C60_bins h beta ani hb
  obtain ⟨n, hn, ht⟩ := C224_names.2.1 b (by omega) (by omega)
  obtain ⟨k, rfl⟩ : ∃ k : Nat, b = k := ⟨b.toNat, by omega⟩
  have hk : k < 5 := by omega
  refine ⟨k, paired.getD k 0, n, e, ?_, ?_, ht, ?_⟩
  · exact (C224_colours mpl hm).1 _ k hk (by push_cast; linarith) (by push_cast; linarith)
  · interval_cases k <;> decide
  · rw [← h3, ← h1, ← h4, ← h0, ← h2]
    interval_cases k <;> (obtain rfl := Option.some.inj hn; refine ⟨?_, ?_, ?_, ?_, ?_⟩ <;> decide)

/-- concretely: value 2 is "Stable", drawn in the seventh colour of "Paired" -/
example : tickText 2 = .ok "Stable" ∧ colourOf (3, 8) 2 = .ok (some 6) := by
  obtain ⟨n, h1, h2⟩ := C224_names.2.1 2 (by norm_num) (by norm_num)
  obtain rfl := Option.some.inj h1
  refine ⟨by exact_mod_cast h2, (C224_colours (3, 8) (by decide)).1 2 2 (by norm_num) (by norm_num) (by norm_num)⟩

end
end Insta
end SW
