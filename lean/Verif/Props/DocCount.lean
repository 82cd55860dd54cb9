import Verif.DocCount
import Mathlib.Data.List.Perm.Basic
import Mathlib.Algebra.BigOperators.Group.List.Lemmas
import Mathlib.Tactic.Common

/-!
# C293: the count of documentation examples
-/

namespace SW
namespace DocCount

/-! ### Specification -/

/-- the text has `k` occurrences of `w` that do not overlap -/
inductive Holds (w : Txt) : Nat → Txt → Prop
  | zero (s : Txt) : Holds w 0 s
  | more (a s : Txt) (k : Nat) : Holds w k s → Holds w (k + 1) (a ++ w ++ s)

/-! ### Lemmas -/

theorem count_nil (w : Txt) : count w [] = 0 := by rw [count]

theorem count_pre {w : Txt} (hw : w ≠ []) {s : Txt} (h : w <+: s) : count w s = count w (s.drop w.length) + 1 := by
  cases s with
  | nil => exact absurd (List.prefix_nil.1 h) hw
  | cons c t =>
    rw [count, if_pos (List.isPrefixOf_iff_prefix.2 h)]
    obtain ⟨n, hn⟩ : ∃ n, w.length = n + 1 := ⟨w.length - 1, by have := List.length_pos_iff.2 hw; omega⟩
    rw [hn]
    rfl

theorem count_cons {w : Txt} {c : Char} {t : Txt} (h : ¬ w <+: c :: t) : count w (c :: t) = count w t := by
  rw [count, if_neg (fun x => h (List.isPrefixOf_iff_prefix.1 x))]

theorem count_both {w : Txt} (hw : w ≠ []) (n : Nat) :
    (∀ t : Txt, t.length ≤ n → ∀ m ≤ w.length, count w t ≤ count w (t.drop m) + 1) ∧
      (∀ t : Txt, t.length ≤ n → ∀ m, count w (t.drop m) ≤ count w t) := by
  have hp := List.length_pos_iff.2 hw
  induction n with
  | zero =>
    refine ⟨fun t ht m _ => ?_, fun t ht m => ?_⟩ <;>
    · have : t = [] := List.length_eq_zero_iff.1 (by omega)
      subst this; simp
  | succ n ih =>
    obtain ⟨ih1, ih2⟩ := ih
    have first : ∀ t : Txt, t.length ≤ n + 1 → ∀ m ≤ w.length, count w t ≤ count w (t.drop m) + 1 := by
      intro t ht m hm
      cases m with
      | zero => simp
      | succ m =>
        cases t with
        | nil => simp
        | cons c t =>
          simp only [List.length_cons] at ht
          by_cases h : w <+: c :: t
          · rw [count_pre hw h]
            have e : (c :: t).drop w.length = ((c :: t).drop (m + 1)).drop (w.length - (m + 1)) := by
              rw [List.drop_drop]; congr 1; omega
            have := ih2 ((c :: t).drop (m + 1)) (by simp; omega) (w.length - (m + 1))
            rw [e]
            omega
          · rw [count_cons h]
            exact ih1 t (by omega) m (by omega)
    refine ⟨first, fun t ht m => ?_⟩
    cases m with
    | zero => simp
    | succ m =>
      cases t with
      | nil => simp
      | cons c t =>
        simp only [List.length_cons] at ht
        have h1 := ih2 t (by omega) m
        have h2 : count w t ≤ count w (c :: t) := by
          by_cases h : w <+: c :: t
          · rw [count_pre hw h]
            obtain ⟨k, hk⟩ : ∃ k, w.length = k + 1 := ⟨w.length - 1, by omega⟩
            rw [hk]
            exact ih1 t (by omega) k (by omega)
          · rw [count_cons h]
        exact h1.trans h2

theorem count_drop {w : Txt} (hw : w ≠ []) (t : Txt) (m : Nat) : count w (t.drop m) ≤ count w t := (count_both hw t.length).2 t le_rfl m

theorem count_more {w : Txt} (hw : w ≠ []) (s : Txt) (n : Nat) : ∀ a : Txt, a.length ≤ n → count w s + 1 ≤ count w (a ++ (w ++ s)) := by
  have hp := List.length_pos_iff.2 hw
  induction n with
  | zero =>
    intro a ha
    have : a = [] := List.length_eq_zero_iff.1 (by omega)
    subst this
    rw [List.nil_append, count_pre hw (List.prefix_append _ _), List.drop_left]
  | succ n ih =>
    intro a ha
    cases a with
    | nil => exact ih [] (by simp)
    | cons c a =>
      simp only [List.length_cons] at ha
      by_cases h : w <+: (c :: a) ++ (w ++ s)
      · rw [count_pre hw h]
        have e : s = (((c :: a) ++ (w ++ s)).drop w.length).drop (a.length + 1) := by
          rw [List.drop_drop, ← List.append_assoc]
          have : w.length + (a.length + 1) = ((c :: a) ++ w).length := by simp; omega
          rw [this, List.drop_left]
        have := count_drop hw (((c :: a) ++ (w ++ s)).drop w.length) (a.length + 1)
        rw [← e] at this
        omega
      · rw [List.cons_append] at h ⊢
        rw [count_cons h]
        exact ih a (by omega)

theorem holds_tail {w : Txt} {k : Nat} {s : Txt} (h : Holds w k s) (c : Char) : Holds w k (c :: s) := by
  cases h with
  | zero => exact .zero _
  | more a s k h => exact .more (c :: a) s k h

theorem holds_count {w : Txt} (hw : w ≠ []) (n : Nat) : ∀ s : Txt, s.length ≤ n → Holds w (count w s) s := by
  have hp := List.length_pos_iff.2 hw
  induction n with
  | zero =>
    intro s hs
    have : s = [] := List.length_eq_zero_iff.1 (by omega)
    subst this
    rw [count_nil]; exact .zero _
  | succ n ih =>
    intro s hs
    cases s with
    | nil => rw [count_nil]; exact .zero _
    | cons c t =>
      simp only [List.length_cons] at hs
      by_cases h : w <+: c :: t
      · rw [count_pre hw h]
        obtain ⟨r, hr⟩ := h
        rw [← hr, List.drop_left]
        have hl : w.length + r.length = t.length + 1 := by rw [← List.length_append, hr]; simp
        exact .more [] r _ (ih r (by omega))
      · rw [count_cons h]
        exact holds_tail (ih t (by omega)) c

theorem holds_less {w : Txt} {k : Nat} {s : Txt} (h : Holds w k s) : ∀ j ≤ k, Holds w j s := by
  induction h with
  | zero s => intro j hj; rw [Nat.le_zero.1 hj]; exact .zero _
  | more a s k _ ih =>
    intro j hj
    cases j with
    | zero => exact .zero _
    | succ j => exact .more a s j (ih j (by omega))

/-! ### C293 -/

/-- What is counted in a text: the greatest number of occurrences that do not overlap. -/
theorem C293_count (w s : Txt) (hw : w ≠ []) (k : Nat) : Holds w k s ↔ k ≤ count w s := by
  constructor
  · intro h
    induction h with
    | zero => exact Nat.zero_le _
    | more a s k _ ih =>
      rw [List.append_assoc]
      exact (Nat.succ_le_succ ih).trans (count_more hw s a.length a le_rfl)
  · exact fun h => holds_less (holds_count hw s.length s le_rfl) k h

/-- a file whose examples count: readable and not below `__pycache__`; of Python files only those that are not hidden -/
def usable (hidden : Bool) (f : File) : Option Txt :=
  if "__pycache__".toList <:+: f.path ∨ hidden = false ∧ ['.'] <+: f.name then none else f.content

theorem rst_fold (fs : List File) (c : Counts) : fs.foldl addRst c =
    ⟨c.rst + ((fs.filterMap (usable true)).map (count ".. code-block:: python".toList)).sum, c.py,
      c.scanned + (fs.filterMap (usable true)).length⟩ := by
  induction fs generalizing c with
  | nil => simp
  | cons f fs ih =>
    rw [List.foldl_cons, ih]
    have hu : usable true f = if cached f then none else f.content := by
      unfold usable cached
      simp only [Bool.true_eq_false, false_and, or_false, decide_eq_true_eq]
    by_cases h : cached f = true
    · rw [List.filterMap_cons_none (by rw [hu, if_pos h])]
      simp only [addRst, h, if_true]
    · cases hc : f.content with
      | none =>
        rw [List.filterMap_cons_none (by rw [hu, if_neg h, hc])]
        simp only [addRst, h, if_false, hc]
        rfl
      | some s =>
        rw [List.filterMap_cons_some (by rw [hu, if_neg h, hc])]
        simp only [addRst, h, hc, List.map_cons, List.sum_cons, List.length_cons, Bool.false_eq_true, if_false, Counts.mk.injEq, true_and]
        constructor <;> omega

theorem py_fold (fs : List File) (c : Counts) : fs.foldl addPy c =
    ⟨c.rst, c.py + ((fs.filterMap (usable false)).map (count ">>>".toList)).sum, c.scanned + (fs.filterMap (usable false)).length⟩ := by
  induction fs generalizing c with
  | nil => simp
  | cons f fs ih =>
    rw [List.foldl_cons, ih]
    have hu : usable false f = if (cached f || ['.'].isPrefixOf f.name) then none else f.content := by
      unfold usable cached
      simp only [true_and, Bool.or_eq_true, decide_eq_true_eq, List.isPrefixOf_iff_prefix]
    by_cases h : (cached f || ['.'].isPrefixOf f.name) = true
    · rw [List.filterMap_cons_none (by rw [hu, if_pos h])]
      simp only [addPy, h, if_true]
    · cases hc : f.content with
      | none =>
        rw [List.filterMap_cons_none (by rw [hu, if_neg h, hc])]
        simp only [addPy, h, hc]
        rfl
      | some s =>
        rw [List.filterMap_cons_some (by rw [hu, if_neg h, hc])]
        simp only [addPy, h, hc, List.map_cons, List.sum_cons, List.length_cons, Bool.false_eq_true, if_false, Counts.mk.injEq, true_and]
        constructor <;> omega

/-- The counts are sums over the usable files: code blocks of reStructuredText, prompts of Python files, and files read. -/
theorem C293_examples (rst py : List File) : examples rst py =
    ⟨((rst.filterMap (usable true)).map (count ".. code-block:: python".toList)).sum,
      ((py.filterMap (usable false)).map (count ">>>".toList)).sum,
      (rst.filterMap (usable true)).length + (py.filterMap (usable false)).length⟩ := by
  rw [examples, rst_fold, py_fold]
  simp

/-- They do not depend on the order in which the files are found. -/
theorem C293_order (rst rst' py py' : List File) (h : rst.Perm rst') (h' : py.Perm py') : examples rst py = examples rst' py' := by
  rw [C293_examples, C293_examples, ((h.filterMap _).map _).sum_eq, ((h'.filterMap _).map _).sum_eq, (h.filterMap _).length_eq,
    (h'.filterMap _).length_eq]

/-- The counts of two directories without a common file add up. -/
theorem C293_add (rst rst' py py' : List File) :
    (examples (rst ++ rst') (py ++ py')).rst = (examples rst py).rst + (examples rst' py').rst ∧
      (examples (rst ++ rst') (py ++ py')).py = (examples rst py).py + (examples rst' py').py ∧
      (examples (rst ++ rst') (py ++ py')).scanned = (examples rst py).scanned + (examples rst' py').scanned := by
  simp only [C293_examples, List.filterMap_append, List.map_append, List.sum_append, List.length_append, true_and]
  omega

/-- Violated: marks of an unresolved merge count as two doctest prompts each, wherever they stand. -/
theorem C293_merge_violated (a s : Txt) : 2 ≤ count ">>>".toList (a ++ ">>>>>>>".toList ++ s) := by
  rw [← C293_count _ _ (by decide)]
  have e : a ++ ">>>>>>>".toList ++ s = a ++ ">>>".toList ++ ([] ++ ">>>".toList ++ (">".toList ++ s)) := by
    simp
  rw [e]
  exact .more _ _ _ (.more _ _ _ (.zero _))

/-! ### Examples -/

/-- two prompts in one file, one file unreadable, one hidden -/
example : examples [⟨"a.rst".toList, "a.rst".toList, some "x".toList⟩]
    [⟨"p/b.py".toList, "b.py".toList, some ">>> 1\n>>> 2".toList⟩, ⟨"p/c.py".toList, "c.py".toList, none⟩,
      ⟨"p/.d.py".toList, ".d.py".toList, some ">>>".toList⟩] = ⟨0, 2, 2⟩ := by
  rw [C293_examples]
  have h : count ">>>".toList ">>> 1\n>>> 2".toList = 2 := by simp [count]
  have h2 : count ".. code-block:: python".toList "x".toList = 0 := by simp [count]
  have u1 : usable true ⟨"a.rst".toList, "a.rst".toList, some "x".toList⟩ = some "x".toList := by decide
  have u2 : usable false ⟨"p/b.py".toList, "b.py".toList, some ">>> 1\n>>> 2".toList⟩ = some ">>> 1\n>>> 2".toList := by decide
  have u3 : usable false ⟨"p/c.py".toList, "c.py".toList, none⟩ = none := by decide
  have u4 : usable false ⟨"p/.d.py".toList, ".d.py".toList, some ">>>".toList⟩ = none := by decide
  simp only [List.filterMap_cons, u1, u2, u3, u4, List.filterMap_nil, List.map_cons, List.map_nil, List.sum_cons, List.sum_nil, h, h2,
    List.length_cons, List.length_nil]
  rfl

/-- overlapping occurrences count once -/
example : ¬ Holds ">>>".toList 2 ">>>>>".toList := by
  rw [C293_count _ _ (by decide)]
  simp [count]

end DocCount
end SW
