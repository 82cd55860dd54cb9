import Verif.ImportTest
import Mathlib.Data.List.Basic
import Mathlib.Data.List.Perm.Subperm
import Mathlib.Tactic.Common
import Mathlib.Tactic.IntervalCases

/-!
# C288: the tests of imports; C289: their report
-/

namespace SW
namespace DynImp

/-! ### Specification -/

/-- the same modules of the package are loaded -/
def Agree (pkg : Name) (l l' : List Name) : Prop := ∀ n, pkg <+: n → (n ∈ l ↔ n ∈ l')

/-- an import unloads nothing -/
def Adds (py : Py) : Prop := ∀ l m n, n ∈ l → n ∈ (py l m).2

/-- how an import ends, and which modules of the package it loads, depends on the modules of the package loaded and on nothing else -/
def Local (pkg : Name) (py : Py) : Prop :=
  ∀ l l' m, Agree pkg l l' → (py l m).1 = (py l' m).1 ∧ Agree pkg (py l m).2 (py l' m).2

/-- an `ImportError` whose text, in lower case, has one of the two phrases -/
def Circular : Outcome → Prop
  | .importError msg => "circular".toList <:+: msg.map Char.toLower ∨ "cannot import name".toList <:+: msg.map Char.toLower
  | _ => False

instance (o : Outcome) : Decidable (Circular o) := by
  cases o <;> unfold Circular <;> infer_instance

/-! ### Lemmas -/

theorem isCircular_iff (msg : Name) : isCircular msg = true ↔ Circular (.importError msg) := by
  simp only [isCircular, has, Circular, Bool.or_eq_true, decide_eq_true_eq]; rfl

theorem agree_refl (pkg : Name) (l : List Name) : Agree pkg l l := fun _ _ => Iff.rfl

theorem agree_symm {pkg : Name} {l l' : List Name} (h : Agree pkg l l') : Agree pkg l' l := fun n hn => (h n hn).symm

theorem agree_trans {pkg : Name} {l l' l'' : List Name} (h : Agree pkg l l') (h' : Agree pkg l' l'') : Agree pkg l l'' :=
  fun n hn => (h n hn).trans (h' n hn)

theorem agree_clear (pkg : Name) (l : List Name) : Agree pkg (clear pkg l) [] := by
  intro n hn
  simp [clear, List.isPrefixOf_iff_prefix, hn]

theorem resultOf_circular (m : Name) (o : Outcome) : (resultOf m o).circular = true ↔ Circular o := by
  cases o with
  | ok => simp [resultOf, Circular]
  | importError msg => exact isCircular_iff msg
  | other c msg => simp [resultOf, Circular]

theorem foundOf_length (m : Name) (o : Outcome) : (foundOf m o).length = if (resultOf m o).circular then 1 else 0 := by
  cases o with
  | ok => simp [foundOf, resultOf]
  | importError msg => simp only [foundOf, resultOf]; split <;> rename_i h <;> simp [h]
  | other c msg => simp [foundOf, resultOf]

theorem mem_foundOf (m : Name) (o : Outcome) (x : Name × Name) :
    x ∈ foundOf m o ↔ x.1 = m ∧ o = .importError x.2 ∧ Circular o := by
  obtain ⟨a, b⟩ := x
  cases o with
  | ok => simp [foundOf]
  | importError msg =>
    simp only [foundOf, ← isCircular_iff]
    by_cases h : isCircular msg = true
    · simp only [h, if_true, List.mem_singleton, Prod.mk.injEq, Outcome.importError.injEq]
      constructor
      · rintro ⟨rfl, rfl⟩; exact ⟨rfl, rfl, trivial⟩
      · rintro ⟨rfl, rfl, -⟩; exact ⟨rfl, rfl⟩
    · simp [h]
  | other c msg => simp [foundOf]

/-! ### C288 -/

/-- Unloading leaves exactly the modules whose name does not begin with that of the package. -/
theorem C288_clear (pkg : Name) (l : List Name) (n : Name) : n ∈ clear pkg l ↔ n ∈ l ∧ ¬ pkg <+: n := by
  simp [clear, List.isPrefixOf_iff_prefix, ← Bool.not_eq_true]

/-- After a test exactly the modules of the package loaded before are loaded, and every other module the import loaded. -/
theorem C288_clean_up (py : Py) (hadd : Adds py) (pkg : Name) (l : List Name) (m n : Name) :
    n ∈ cleanUp pkg l (py l m).2 ↔ n ∈ l ∨ (n ∈ (py l m).2 ∧ ¬ pkg <+: n) := by
  have := hadd l m n
  have hp := List.isPrefixOf_iff_prefix (l₁ := pkg) (l₂ := n)
  simp only [cleanUp, List.mem_filter, Bool.not_eq_true', Bool.and_eq_false_iff, decide_eq_false_iff_not, not_not, ← hp, Bool.not_eq_true]
  tauto

theorem agree_cleanUp (py : Py) (hadd : Adds py) (pkg : Name) (l : List Name) (m : Name) : Agree pkg (cleanUp pkg l (py l m).2) l := by
  intro n hn
  rw [C288_clean_up py hadd]; tauto

/-- The tests of single modules leave the modules of the package that are loaded as they were. -/
theorem C288_individual_state (py : Py) (hadd : Adds py) (pkg : Name) (ms l : List Name) :
    Agree pkg (individual py pkg ms l).2.2 l := by
  induction ms generalizing l with
  | nil => exact agree_refl _ _
  | cons m ms ih => exact agree_trans (ih _) (agree_cleanUp py hadd pkg l m)

theorem individual_from (py : Py) (hadd : Adds py) (pkg : Name) (hloc : Local pkg py) (ms l l' : List Name) (h : Agree pkg l l') :
    (individual py pkg ms l).1 = ms.map (fun m => resultOf m (py l' m).1) ∧
      (individual py pkg ms l).2.1 = ms.flatMap (fun m => foundOf m (py l' m).1) := by
  induction ms generalizing l with
  | nil => simp [individual]
  | cons m ms ih =>
    have h1 := (hloc l l' m h).1
    obtain ⟨h2, h3⟩ := ih _ (agree_trans (agree_cleanUp py hadd pkg l m) h)
    simp only [individual, h2, h3, h1, List.map_cons, List.flatMap_cons, and_self]

/-- Every module is tested as if it were the first: the results do not depend on the modules tested before it. -/
theorem C288_individual (py : Py) (hadd : Adds py) (pkg : Name) (hloc : Local pkg py) (ms l : List Name) :
    (individual py pkg ms l).1 = ms.map (fun m => resultOf m (py l m).1) :=
  (individual_from py hadd pkg hloc ms l l (agree_refl _ _)).1

/-- The circular imports reported are the modules of which the import, from the state at the start, fails as circular, with the text. -/
theorem C288_found (py : Py) (hadd : Adds py) (pkg : Name) (hloc : Local pkg py) (ms l : List Name) (m msg : Name) :
    (m, msg) ∈ (individual py pkg ms l).2.1 ↔ m ∈ ms ∧ (py l m).1 = .importError msg ∧ Circular (.importError msg) := by
  rw [(individual_from py hadd pkg hloc ms l l (agree_refl _ _)).2]
  simp only [List.mem_flatMap, mem_foundOf]
  constructor
  · rintro ⟨a, ha, rfl, h, hc⟩
    exact ⟨ha, h, by rwa [h] at hc⟩
  · rintro ⟨ha, h, hc⟩
    exact ⟨m, ha, rfl, h, by rw [h]; exact hc⟩

theorem individual_counts (py : Py) (pkg : Name) (ms l : List Name) :
    (individual py pkg ms l).1.length = ms.length ∧
      (individual py pkg ms l).2.1.length = ((individual py pkg ms l).1.filter (fun r => r.circular)).length ∧
      ((individual py pkg ms l).1.filter (fun r => r.success)).length + ((individual py pkg ms l).1.filter (fun r => r.circular)).length
        ≤ ms.length := by
  induction ms generalizing l with
  | nil => simp [individual]
  | cons m ms ih =>
    obtain ⟨h1, h2, h3⟩ := ih (cleanUp pkg l (py l m).2)
    refine ⟨by simp [individual, h1], ?_, ?_⟩
    · simp only [individual, List.length_append, foundOf_length, h2, List.filter_cons]
      split <;> simp <;> omega
    · simp only [individual, List.filter_cons, List.length_cons]
      cases (py l m).1 with
      | ok => simp [resultOf]; omega
      | importError msg => by_cases hc : isCircular msg = true <;> simp [resultOf, hc] <;> omega
      | other c msg => simp [resultOf]; omega

/-- The counts of the summary add up, whatever imports do. -/
theorem C288_counts (py : Py) (pkg : Name) (sh : List Name → List Name) (ms l : List Name) :
    (run py pkg sh ms l).successful + (run py pkg sh ms l).failed = (run py pkg sh ms l).total ∧
      (run py pkg sh ms l).circularTotal = (run py pkg sh ms l).circularIndividual ∧
      (run py pkg sh ms l).circularTotal ≤ (run py pkg sh ms l).failed := by
  obtain ⟨h1, h2, h3⟩ := individual_counts py pkg ms l
  simp only [run]
  omega

/-- The successes counted are the modules that import from the state at the start. -/
theorem C288_successful (py : Py) (hadd : Adds py) (pkg : Name) (hloc : Local pkg py) (sh : List Name → List Name) (ms l : List Name) :
    (run py pkg sh ms l).successful = ms.countP (fun m => decide ((py l m).1 = .ok)) := by
  simp only [run, C288_individual py hadd pkg hloc]
  rw [← List.countP_eq_length_filter, List.countP_map]
  congr 1
  funext m
  simp only [Function.comp]
  cases (py l m).1 <;> simp [resultOf]

/-- what holds of the counts of a sequence after `k` modules -/
def SeqInv (k : Nat) (s : Seq) : Prop :=
  s.successful + s.failed = k ∧ s.errors.length = s.failed ∧ s.circular = (s.errors.filter (fun e => e.2.2)).length

theorem seqInv_step (m : Name) (k : Nat) (s : Seq) (o : Outcome) (h : SeqInv k s) :
    SeqInv (k + 1) (seqStep m s o) ∧ (seqStep m s o).tested = s.tested := by
  obtain ⟨h1, h2, h3⟩ := h
  cases o with
  | ok => refine ⟨⟨?_, ?_, ?_⟩, rfl⟩ <;> simp [seqStep] <;> omega
  | importError msg =>
    refine ⟨⟨?_, ?_, ?_⟩, rfl⟩
    · simp [seqStep]; omega
    · simp [seqStep, h2]
    · simp only [seqStep, List.filter_append, List.length_append, ← h3]
      by_cases hc : isCircular msg = true <;> simp [hc]
  | other c msg => refine ⟨⟨?_, ?_, ?_⟩, rfl⟩ <;> simp [seqStep, h2, List.filter_append, h3]; omega

theorem seq_fold (py : Py) (ms : List Name) (s : Seq × List Name) (k : Nat) (h : SeqInv k s.1) :
    SeqInv (k + ms.length) (ms.foldl (fun s m => let o := py s.2 m; (seqStep m s.1 o.1, o.2)) s).1 ∧
      (ms.foldl (fun s m => let o := py s.2 m; (seqStep m s.1 o.1, o.2)) s).1.tested = s.1.tested := by
  induction ms generalizing s k with
  | nil => exact ⟨h, rfl⟩
  | cons m ms ih =>
    obtain ⟨h1, h2⟩ := seqInv_step m k s.1 (py s.2 m).1 h
    obtain ⟨h3, h4⟩ := ih (seqStep m s.1 (py s.2 m).1, (py s.2 m).2) (k + 1) h1
    refine ⟨?_, h4.trans h2⟩
    simp only [List.foldl_cons, List.length_cons]
    rw [show k + (ms.length + 1) = k + 1 + ms.length by omega]
    exact h3

/-- In every order successes and failures add up to the modules tested, each failure is an error listed, and the circular ones are those
marked. -/
theorem C288_sequential (py : Py) (ms l : List Name) :
    (sequential py ms l).1.tested = ms.length ∧
      (sequential py ms l).1.successful + (sequential py ms l).1.failed = ms.length ∧
      (sequential py ms l).1.errors.length = (sequential py ms l).1.failed ∧
      (sequential py ms l).1.circular = ((sequential py ms l).1.errors.filter (fun e => e.2.2)).length := by
  obtain ⟨⟨h1, h2, h3⟩, h4⟩ := seq_fold py ms (⟨ms.length, 0, 0, 0, []⟩, l) 0 ⟨rfl, rfl, rfl⟩
  exact ⟨h4, by rw [Nat.zero_add] at h1; exact h1, h2, h3⟩

/-- the loaded modules of the package after the first modules of a sequence -/
def loadedAfter (py : Py) (ms : List Name) (l : List Name) : List Name := ms.foldl (fun l m => (py l m).2) l

theorem seq_loaded (py : Py) (ms : List Name) (s : Seq × List Name) :
    (ms.foldl (fun s m => let o := py s.2 m; (seqStep m s.1 o.1, o.2)) s).2 = loadedAfter py ms s.2 := by
  induction ms generalizing s with
  | nil => rfl
  | cons m ms ih => exact ih _

theorem seq_errors_fold (py : Py) (ms : List Name) (s : Seq × List Name) (e : Name × Name × Bool) :
    e ∈ (ms.foldl (fun s m => let o := py s.2 m; (seqStep m s.1 o.1, o.2)) s).1.errors ↔ e ∈ s.1.errors ∨
      ∃ a m b, ms = a ++ m :: b ∧ e.1 = m ∧
        (((py (loadedAfter py a s.2) m).1 = .importError e.2.1 ∧ (e.2.2 = true ↔ Circular (.importError e.2.1))) ∨
          ∃ c t, (py (loadedAfter py a s.2) m).1 = .other c t ∧ e.2 = (otherText c t, false)) := by
  induction ms generalizing s with
  | nil => simp
  | cons x ms ih =>
    rw [List.foldl_cons, ih]
    have hstep : e ∈ (seqStep x s.1 (py s.2 x).1).errors ↔ e ∈ s.1.errors ∨ (e.1 = x ∧
        (((py s.2 x).1 = .importError e.2.1 ∧ (e.2.2 = true ↔ Circular (.importError e.2.1))) ∨
          ∃ c t, (py s.2 x).1 = .other c t ∧ e.2 = (otherText c t, false))) := by
      obtain ⟨e1, e2, e3⟩ := e
      cases (py s.2 x).1 with
      | ok => simp [seqStep]
      | importError msg =>
        simp only [seqStep, List.mem_append, List.mem_singleton, Prod.mk.injEq, Outcome.importError.injEq, reduceCtorEq, false_and,
          exists_false, or_false]
        constructor
        · rintro (h | ⟨rfl, rfl, rfl⟩)
          · exact Or.inl h
          · exact Or.inr ⟨rfl, rfl, isCircular_iff _⟩
        · rintro (h | ⟨rfl, rfl, h⟩)
          · exact Or.inl h
          · refine Or.inr ⟨rfl, rfl, ?_⟩
            rw [← isCircular_iff] at h
            exact Bool.eq_iff_iff.2 h
      | other c t =>
        simp only [seqStep, List.mem_append, List.mem_singleton, Prod.mk.injEq, reduceCtorEq, false_and, false_or, Outcome.other.injEq]
        constructor
        · rintro (h | ⟨rfl, rfl, rfl⟩)
          · exact Or.inl h
          · exact Or.inr ⟨rfl, c, t, ⟨rfl, rfl⟩, rfl, rfl⟩
        · rintro (h | ⟨rfl, c', t', ⟨rfl, rfl⟩, rfl, rfl⟩)
          · exact Or.inl h
          · exact Or.inr ⟨rfl, rfl, rfl⟩
    simp only [hstep]
    constructor
    · rintro ((h | h) | ⟨a, m, b, rfl, h⟩)
      · exact Or.inl h
      · exact Or.inr ⟨[], x, ms, rfl, h⟩
      · exact Or.inr ⟨x :: a, m, b, rfl, h⟩
    · rintro (h | ⟨a, m, b, hab, h⟩)
      · exact Or.inl (Or.inl h)
      · cases a with
        | nil =>
          simp only [List.nil_append, List.cons.injEq] at hab
          obtain ⟨rfl, rfl⟩ := hab
          exact Or.inl (Or.inr h)
        | cons y a =>
          simp only [List.cons_append, List.cons.injEq] at hab
          obtain ⟨rfl, rfl⟩ := hab
          exact Or.inr ⟨a, m, b, rfl, h⟩

/-- The errors of an order are those of its modules, each imported with those before it loaded; an `ImportError` is marked circular exactly
if its text is. -/
theorem C288_sequential_errors (py : Py) (ms l : List Name) (e : Name × Name × Bool) :
    e ∈ (sequential py ms l).1.errors ↔ ∃ a m b, ms = a ++ m :: b ∧ e.1 = m ∧
        (((py (loadedAfter py a l) m).1 = .importError e.2.1 ∧ (e.2.2 = true ↔ Circular (.importError e.2.1))) ∨
          ∃ c t, (py (loadedAfter py a l) m).1 = .other c t ∧ e.2 = (c ++ ": ".toList ++ t, false)) := by
  have := seq_errors_fold py ms (⟨ms.length, 0, 0, 0, []⟩, l) e
  simp only [List.not_mem_nil, false_or] at this
  rw [sequential, this]
  simp [otherText]

theorem seq_agree (pkg : Name) (py : Py) (hloc : Local pkg py) (ms : List Name) (s : Seq) (l l' : List Name) (h : Agree pkg l l') :
    (ms.foldl (fun s m => let o := py s.2 m; (seqStep m s.1 o.1, o.2)) (s, l)).1 =
      (ms.foldl (fun s m => let o := py s.2 m; (seqStep m s.1 o.1, o.2)) (s, l')).1 := by
  induction ms generalizing s l l' with
  | nil => rfl
  | cons m ms ih =>
    obtain ⟨h1, h2⟩ := hloc l l' m h
    simp only [List.foldl_cons, h1]
    exact ih _ _ _ h2

/-- Every order is tested as if nothing of the package were loaded: no order, and no test before, has an effect on the next. -/
theorem C288_orders_fresh (pkg : Name) (py : Py) (hloc : Local pkg py) (ts : List (List Name)) (l : List Name) :
    (orderTests py pkg ts l).1 = ts.map (fun t => (sequential py t []).1) := by
  induction ts generalizing l with
  | nil => rfl
  | cons t ts ih =>
    simp only [orderTests, List.map_cons, ih]
    congr 1
    exact seq_agree pkg py hloc t _ _ _ (agree_clear pkg l)

theorem sorted_perm (ms : List Name) : (sorted ms).Perm ms := List.mergeSort_perm _ _

theorem sorted_sorted (ms : List Name) : (sorted ms).Pairwise (· ≤ ·) := by
  have := List.pairwise_mergeSort (le := fun a b : Name => decide (a ≤ b))
    (fun a b c h1 h2 => by simp only [decide_eq_true_eq] at *; exact List.le_trans h1 h2)
    (fun a b => by simp only [Bool.or_eq_true, decide_eq_true_eq]; exact List.le_total a b) ms
  simpa [sorted] using this

theorem sortedRev_sorted (ms : List Name) : (sortedRev ms).Pairwise (· ≥ ·) := by
  have := List.pairwise_mergeSort (le := fun a b : Name => decide (b ≤ a))
    (fun a b c h1 h2 => by simp only [decide_eq_true_eq] at *; exact List.le_trans h2 h1)
    (fun a b => by simp only [Bool.or_eq_true, decide_eq_true_eq]; exact List.le_total b a) ms
  simpa [sortedRev] using this

/-- a name that has "base", "core" or "__init__" in it -/
def Base (m : Name) : Prop := "base".toList <:+: m ∨ "core".toList <:+: m ∨ "__init__".toList <:+: m

theorem isBase_iff (m : Name) : isBase m = true ↔ Base m := by
  simp only [isBase, has, Base, List.any_cons, List.any_nil, Bool.or_false, Bool.or_eq_true, decide_eq_true_eq]

/-- The four orders: alphabetical, reverse, base modules first (each part alphabetical), and at most ten of a shuffled copy; the first three
have every module, as often as it was given. -/
theorem C288_orders (sh : List Name → List Name) (hsh : ∀ l, (sh l).Perm l) (ms : List Name) :
    ∃ a b c d e, orders sh ms = [a, b, c ++ d, e] ∧ a.Perm ms ∧ a.Pairwise (· ≤ ·) ∧ b.Perm ms ∧ b.Pairwise (· ≥ ·) ∧
      (c ++ d).Perm ms ∧ c.Pairwise (· ≤ ·) ∧ d.Pairwise (· ≤ ·) ∧ (∀ m ∈ c, Base m) ∧ (∀ m ∈ d, ¬ Base m) ∧
      e.Subperm ms ∧ e.length = min 10 ms.length := by
  have hf : ms.filter (fun m => decide (m ∉ ms.filter isBase)) = ms.filter (fun m => ! isBase m) := by
    apply List.filter_congr
    intro m hm
    simp only [List.mem_filter, hm, true_and]
    cases isBase m <;> simp
  refine ⟨sorted ms, sortedRev ms, sorted (ms.filter isBase), sorted (ms.filter (fun m => ! isBase m)),
    (sh ms).take (min 10 ms.length), ?_, sorted_perm _,
    sorted_sorted _, List.mergeSort_perm _ _, sortedRev_sorted _, ?_, sorted_sorted _, sorted_sorted _, ?_, ?_, ?_, ?_⟩
  · simp only [orders, dependencyFirst, hf]
  · exact ((sorted_perm _).append (sorted_perm _)).trans (List.filter_append_perm _ _)
  · intro m hm
    have := (sorted_perm _).mem_iff.1 hm
    exact (isBase_iff m).1 (List.mem_filter.1 this).2
  · intro m hm
    have := (List.mem_filter.1 ((sorted_perm _).mem_iff.1 hm)).2
    rw [← isBase_iff]
    simpa using this
  · exact (List.take_sublist _ _).subperm.trans (hsh ms).subperm
  · rw [List.length_take, (hsh ms).length_eq]; omega

/-- The pairs tested are those of the first six key modules, in order. -/
theorem C288_pairs (key : List Name) (a b : Name) :
    (a, b) ∈ pairs key ↔ ∃ i j, i < j ∧ j < 6 ∧ key[i]? = some a ∧ key[j]? = some b := by
  simp only [pairs, List.mem_flatMap, List.mem_map, Prod.mk.injEq]
  constructor
  · rintro ⟨⟨x, i⟩, hx, y, hy, rfl, rfl⟩
    rw [List.mem_zipIdx_iff_getElem?] at hx
    obtain ⟨k, hk⟩ := List.mem_iff_getElem?.1 hy
    simp only [List.getElem?_take] at hx
    simp only [List.getElem?_drop, List.getElem?_take] at hk
    split at hk
    · split at hx
      · exact ⟨i, i + 1 + k, by omega, by omega, hx, hk⟩
      · simp at hx
    · simp at hk
  · rintro ⟨i, j, hij, hj, ha, hb⟩
    refine ⟨(a, i), ?_, b, ?_, rfl, rfl⟩
    · rw [List.mem_zipIdx_iff_getElem?]
      simp only [List.getElem?_take]
      rw [if_pos (by omega)]; exact ha
    · rw [List.mem_iff_getElem?]
      refine ⟨j - (i + 1), ?_⟩
      rw [List.getElem?_drop, List.getElem?_take, show i + 1 + (j - (i + 1)) = j by omega, if_pos hj]
      exact hb

/-- Their number: fifteen, or all pairs of fewer than six key modules. -/
theorem C288_pairs_length (key : List Name) : (pairs key).length = min key.length 6 * (min key.length 6 - 1) / 2 := by
  rcases key with _ | ⟨a, _ | ⟨b, _ | ⟨c, _ | ⟨d, _ | ⟨e, _ | ⟨f, t⟩⟩⟩⟩⟩⟩
  all_goals simp [pairs, List.zipIdx]

/-- how the test of a pair ends in a fresh interpreter -/
def pairOutcome (py : Py) (p : Name × Name) : Outcome :=
  match (py [] p.1).1 with
  | .ok => (py (py [] p.1).2 p.2).1
  | o => o

theorem importBoth_fresh (pkg : Name) (py : Py) (hloc : Local pkg py) (p : Name × Name) (l : List Name) (h : Agree pkg l []) :
    (importBoth py p l).1 = pairOutcome py p := by
  obtain ⟨h1, h2⟩ := hloc l [] p.1 h
  unfold importBoth pairOutcome
  rw [← h1]
  rcases hp : py l p.1 with ⟨o, l'⟩
  rw [hp] at h2
  cases o with
  | ok => exact (hloc _ _ p.2 h2).1
  | importError msg => rfl
  | other c t => rfl

/-- the entry of a failed pair -/
def failure (p : Name × Name) : Outcome → Option (Name × Name × Name)
  | .ok => none
  | .importError msg => some (p.1, p.2, msg)
  | .other c t => some (p.1, p.2, c ++ ": ".toList ++ t)

theorem cross_fold (pkg : Name) (py : Py) (hloc : Local pkg py) (ps : List (Name × Name)) (c : Cross) (l : List Name) :
    (ps.foldl (fun c p => let o := importBoth py p (clear pkg c.2); (crossStep p c.1 o.1, o.2)) (c, l)).1 =
      ⟨c.total + ps.length, c.successful + ps.countP (fun p => decide (pairOutcome py p = .ok)),
        c.failed + ps.countP (fun p => decide (pairOutcome py p ≠ .ok)),
        c.circular ++ (ps.filter (fun p => decide (Circular (pairOutcome py p)))).filterMap (fun p => failure p (pairOutcome py p)),
        c.other ++ (ps.filter (fun p => decide (¬ Circular (pairOutcome py p)))).filterMap (fun p => failure p (pairOutcome py p))⟩ := by
  induction ps generalizing c l with
  | nil => simp
  | cons p ps ih =>
    rw [List.foldl_cons, ih, importBoth_fresh pkg py hloc p _ (agree_clear pkg l)]
    cases h : pairOutcome py p with
    | ok => simp [crossStep, h, Circular, failure]; omega
    | importError msg =>
      by_cases hc : isCircular msg = true
      · have hc' := (isCircular_iff msg).1 hc
        simp [crossStep, h, hc, hc', failure]; omega
      · have hc' : ¬ Circular (.importError msg) := fun x => hc ((isCircular_iff msg).2 x)
        simp [crossStep, h, hc, hc', failure]; omega
    | other a t =>
      have hc' : ¬ Circular (.other a t) := fun x => x
      simp [crossStep, h, hc', failure, otherText]; omega

/-- a name that has one of the five words in it -/
def Key (m : Name) : Prop := ∃ w ∈ ["core", "__init__", "plotting", "fitfunctions", "base"], w.toList <:+: m

instance (m : Name) : Decidable (Key m) := by unfold Key; infer_instance

/-- Every pair is tested as in a fresh interpreter; the counts are those of the outcomes, and the two lists of errors the failures that are
circular and those that are not, in order. -/
theorem C288_cross (pkg : Name) (py : Py) (hloc : Local pkg py) (ms l : List Name) :
    ∃ ps, ps = pairs (ms.filter (fun m => decide (Key m))) ∧
      (cross py pkg ms l).1 = ⟨ps.length, ps.countP (fun p => decide (pairOutcome py p = .ok)),
        ps.countP (fun p => decide (pairOutcome py p ≠ .ok)),
        (ps.filter (fun p => decide (Circular (pairOutcome py p)))).filterMap (fun p => failure p (pairOutcome py p)),
        (ps.filter (fun p => decide (¬ Circular (pairOutcome py p)))).filterMap (fun p => failure p (pairOutcome py p))⟩ := by
  have hk : ms.filter (fun m => decide (Key m)) = ms.filter isKey := by
    apply List.filter_congr
    intro m _
    rw [Bool.eq_iff_iff]
    rw [decide_eq_true_eq]
    simp only [Key, isKey, has, List.any_eq_true, decide_eq_true_eq]
  refine ⟨_, rfl, ?_⟩
  rw [cross, cross_fold pkg py hloc, hk]
  simp only [Nat.zero_add, List.nil_append]

theorem cross_counts_fold (pkg : Name) (py : Py) (ps : List (Name × Name)) (c : Cross × List Name)
    (h : c.1.successful + c.1.failed = c.1.total ∧ c.1.circular.length + c.1.other.length = c.1.failed) :
    let r := (ps.foldl (fun c p => let o := importBoth py p (clear pkg c.2); (crossStep p c.1 o.1, o.2)) c).1
    r.total = c.1.total + ps.length ∧ r.successful + r.failed = r.total ∧ r.circular.length + r.other.length = r.failed := by
  induction ps generalizing c with
  | nil => exact ⟨rfl, h⟩
  | cons p ps ih =>
    obtain ⟨h1, h2⟩ := h
    rw [List.foldl_cons]
    have hs : (crossStep p c.1 (importBoth py p (clear pkg c.2)).1).total = c.1.total + 1 ∧
        (crossStep p c.1 (importBoth py p (clear pkg c.2)).1).successful + (crossStep p c.1 (importBoth py p (clear pkg c.2)).1).failed
          = c.1.total + 1 ∧
        (crossStep p c.1 (importBoth py p (clear pkg c.2)).1).circular.length +
          (crossStep p c.1 (importBoth py p (clear pkg c.2)).1).other.length =
          (crossStep p c.1 (importBoth py p (clear pkg c.2)).1).failed := by
      cases (importBoth py p (clear pkg c.2)).1 with
      | ok => simp [crossStep]; omega
      | importError msg => simp only [crossStep]; split <;> simp <;> omega
      | other a t => simp [crossStep]; omega
    obtain ⟨h3, h4, h5⟩ := ih (crossStep p c.1 (importBoth py p (clear pkg c.2)).1, (importBoth py p (clear pkg c.2)).2)
      ⟨by simp only [hs.1]; exact hs.2.1, hs.2.2⟩
    refine ⟨?_, h4, h5⟩
    rw [h3]
    simp only [hs.1, List.length_cons]
    omega

/-- The counts of the pairs add up, whatever imports do. -/
theorem C288_cross_counts (pkg : Name) (py : Py) (ms l : List Name) :
    (cross py pkg ms l).1.successful + (cross py pkg ms l).1.failed = (cross py pkg ms l).1.total ∧
      (cross py pkg ms l).1.circular.length + (cross py pkg ms l).1.other.length = (cross py pkg ms l).1.failed ∧
      (cross py pkg ms l).1.total ≤ 15 := by
  obtain ⟨h1, h2, h3⟩ := cross_counts_fold pkg py (pairs (ms.filter isKey)) (⟨0, 0, 0, [], []⟩, l) ⟨rfl, rfl⟩
  refine ⟨h2, h3, ?_⟩
  refine le_of_eq_of_le h1 ?_
  simp only [Nat.zero_add]
  rw [C288_pairs_length]
  have : min (ms.filter isKey).length 6 ≤ 6 := by omega
  generalize min (ms.filter isKey).length 6 = k at this ⊢
  interval_cases k <;> decide

/-- The report has one result per module, the circular imports found, the four orders and the pairs, each as in the state at the start or in
a fresh interpreter. -/
theorem C288_report (py : Py) (hadd : Adds py) (pkg : Name) (hloc : Local pkg py) (sh : List Name → List Name) (ms l : List Name) :
    (run py pkg sh ms l).total = ms.length ∧
      (run py pkg sh ms l).individual = ms.map (fun m => resultOf m (py l m).1) ∧
      (∀ m msg, (m, msg) ∈ (run py pkg sh ms l).found ↔ m ∈ ms ∧ (py l m).1 = .importError msg ∧ Circular (.importError msg)) ∧
      (run py pkg sh ms l).orders = (orders sh ms).map (fun t => (sequential py t []).1) ∧
      (run py pkg sh ms l).cross = (cross py pkg ms []).1 ∧
      (run py pkg sh ms l).crossCircular = (run py pkg sh ms l).cross.circular.length ∧
      (run py pkg sh ms l).circularTotal = (run py pkg sh ms l).found.length := by
  refine ⟨rfl, C288_individual py hadd pkg hloc ms l, C288_found py hadd pkg hloc ms l, C288_orders_fresh pkg py hloc _ _, ?_, rfl, rfl⟩
  obtain ⟨ps, hps, h⟩ := C288_cross pkg py hloc ms (orderTests py pkg (orders sh ms) (individual py pkg ms l).2.2).2
  obtain ⟨qs, hqs, h'⟩ := C288_cross pkg py hloc ms []
  subst hps hqs
  exact h.trans h'.symm

/-- What a result says: success exactly if the import succeeds, circular exactly if it fails as circular, and the text of the error. -/
theorem C288_result (m : Name) (o : Outcome) :
    (resultOf m o).module = m ∧ ((resultOf m o).success = true ↔ o = .ok) ∧ ((resultOf m o).circular = true ↔ Circular o) ∧
      ((resultOf m o).error = match o with
        | .ok => none
        | .importError msg => some msg
        | .other c t => some (c ++ ": ".toList ++ t)) := by
  refine ⟨by cases o <;> rfl, by cases o <;> simp [resultOf], resultOf_circular m o, ?_⟩
  cases o <;> simp [resultOf, otherText]

/-! ### C289 -/

/-- The modules found are the names of the files that are not skipped, in alphabetical order. -/
theorem C289_discover (files : List File) :
    (discover files).Pairwise (· ≤ ·) ∧ ∀ n, n ∈ discover files ↔ ∃ f ∈ files, moduleName f = n ∧
      "tests".toList ∉ f.root ++ f.dirs ∧ "__pycache__".toList ∉ f.root ++ f.dirs ∧ ¬ "test_".toList <+: f.stem := by
  refine ⟨sorted_sorted _, fun n => ?_⟩
  have hp : ∀ f : File, "test_".toList.isPrefixOf f.stem = false ↔ ¬ "test_".toList <+: f.stem := by
    intro f
    rw [← List.isPrefixOf_iff_prefix, Bool.not_eq_true]
  simp only [discover, (sorted_perm _).mem_iff, List.mem_map, List.mem_filter, skipped, Bool.not_eq_true', Bool.or_eq_false_iff,
    decide_eq_false_iff_not, hp]
  constructor
  · rintro ⟨f, ⟨hf, ⟨h1, h2⟩, h3⟩, rfl⟩; exact ⟨f, hf, rfl, h1, h3, h2⟩
  · rintro ⟨f, hf, rfl, h1, h3, h2⟩; exact ⟨f, ⟨hf, ⟨h1, h2⟩, h3⟩, rfl⟩

/-- The parts of a module name are the package, the directories and the name of the file; `__init__` stands for its directory. -/
theorem C289_names (root dirs : List Name) (pkg stem : Name) :
    moduleName ⟨root ++ [pkg], dirs, stem⟩ =
      ((pkg :: (if stem = "__init__".toList then dirs else dirs ++ [stem])).flatMap (fun p => '.' :: p)).tail := by
  have hd : ∀ ps : List Name, ps ≠ [] → '.' :: dotted ps = ps.flatMap (fun p => '.' :: p) := by
    intro ps
    induction ps with
    | nil => simp
    | cons a t ih =>
      intro _
      cases t with
      | nil => simp [dotted]
      | cons b t => simp only [dotted, List.flatMap_cons, ← List.cons_append]; rw [ih (by simp)]; simp
  simp only [moduleName, List.getLast?_append, List.getLast?_singleton, Option.some_or, Option.getD_some, List.flatMap_cons,
    List.cons_append, List.tail_cons]
  generalize (if stem = "__init__".toList then dirs else dirs ++ [stem]) = ps
  by_cases h : ps = []
  · simp [h]
  · rw [if_neg h, hd ps h]

/-- The verdict is "no circular imports" exactly if no test of a single module failed as circular. -/
theorem C289_verdict (py : Py) (hadd : Adds py) (pkg : Name) (hloc : Local pkg py) (sh : List Name → List Name) (ms l : List Name) :
    clean (run py pkg sh ms l) = true ↔ ∀ m ∈ ms, ¬ Circular (py l m).1 := by
  have h : (run py pkg sh ms l).circularTotal = (individual py pkg ms l).2.1.length := rfl
  simp only [clean, h, Bool.not_eq_true', decide_eq_false_iff_not, Nat.not_lt, Nat.le_zero_eq, List.length_eq_zero_iff]
  constructor
  · intro he m hm hc
    cases ho : (py l m).1 with
    | ok => rw [ho] at hc; exact hc
    | importError msg =>
      have := (C288_found py hadd pkg hloc ms l m msg).2 ⟨hm, ho, ho ▸ hc⟩
      rw [he] at this; exact absurd this (by simp)
    | other a t => rw [ho] at hc; exact hc
  · intro hm
    rw [List.eq_nil_iff_forall_not_mem]
    rintro ⟨m, msg⟩ hx
    obtain ⟨h1, h2, h3⟩ := (C288_found py hadd pkg hloc ms l m msg).1 hx
    exact hm m h1 (h2 ▸ h3)

/-- a package in which `p.base` cannot be imported once `p.core` is loaded -/
def brokenPy : Py := fun l m =>
  if m = "p.base".toList ∧ "p.core".toList ∈ l then (.importError "partially initialized module (circular import)".toList, l)
  else (.ok, m :: l)

theorem brokenPy_adds : Adds brokenPy := by
  intro l m n hn
  unfold brokenPy
  split
  · exact hn
  · exact List.mem_cons_of_mem _ hn

theorem brokenPy_local : Local ['p'] brokenPy := by
  intro l l' m h
  have hc : "p.core".toList ∈ l ↔ "p.core".toList ∈ l' := h _ (by decide)
  unfold brokenPy
  by_cases hm : m = "p.base".toList ∧ "p.core".toList ∈ l
  · rw [if_pos hm, if_pos ⟨hm.1, hc.1 hm.2⟩]; exact ⟨rfl, h⟩
  · rw [if_neg hm, if_neg (fun x => hm ⟨x.1, hc.2 x.2⟩)]
    refine ⟨rfl, fun n hn => ?_⟩
    simp only [List.mem_cons, h n hn]

def brokenMods : List Name := ["p.core".toList, "p.base".toList]

theorem brokenPy_circular : Circular (pairOutcome brokenPy ("p.core".toList, "p.base".toList)) := by decide

/-- Violated: circular imports found in the tests of pairs are not in the total, and "No circular imports detected" is printed. -/
theorem C289_cross_violated (sh : List Name → List Name) :
    clean (run brokenPy ['p'] sh brokenMods []) = true ∧ (run brokenPy ['p'] sh brokenMods []).crossCircular = 1 ∧
      (run brokenPy ['p'] sh brokenMods []).circularTotal = 0 := by
  have h1 : clean (run brokenPy ['p'] sh brokenMods []) = true :=
    (C289_verdict brokenPy brokenPy_adds ['p'] brokenPy_local sh brokenMods []).2 (by decide)
  refine ⟨h1, ?_, ?_⟩
  · have h : ∀ l, (cross brokenPy ['p'] brokenMods l).1.circular.length = 1 := by
      intro l
      obtain ⟨ps, hps, hc⟩ := C288_cross ['p'] brokenPy brokenPy_local brokenMods l
      rw [hc, hps]
      decide
    exact h (orderTests brokenPy ['p'] (orders sh brokenMods) (individual brokenPy ['p'] brokenMods []).2.2).2
  · simpa [clean] using h1

/-- Violated: nor are those found in the tests of the orders. -/
theorem C289_orders_violated (sh : List Name → List Name) :
    ∃ s ∈ (run brokenPy ['p'] sh brokenMods []).orders, s.circular = 1 ∧ clean (run brokenPy ['p'] sh brokenMods []) = true := by
  have hs : sortedRev brokenMods = ["p.core".toList, "p.base".toList] := by
    apply List.mergeSort_of_pairwise
    decide
  refine ⟨(sequential brokenPy (sortedRev brokenMods) []).1, ?_, ?_, (C289_cross_violated sh).1⟩
  · show _ ∈ (orderTests brokenPy ['p'] (orders sh brokenMods) _).1
    rw [C288_orders_fresh ['p'] brokenPy brokenPy_local]
    exact List.mem_map.2 ⟨sortedRev brokenMods, by simp [orders], rfl⟩
  · rw [hs]; decide

/-- Violated: in a checkout below a directory called `tests` (or `__pycache__`) no module is found, and the verdict is clean. -/
theorem C289_tests_violated (py : Py) (pkg : Name) (sh : List Name → List Name) (root : List Name) (hr : "tests".toList ∈ root)
    (files : List File) (hf : ∀ f ∈ files, f.root = root) (l : List Name) :
    discover files = [] ∧ clean (run py pkg sh (discover files) l) = true ∧ (run py pkg sh (discover files) l).total = 0 := by
  have h : discover files = [] := by
    rw [List.eq_nil_iff_forall_not_mem]
    intro n hn
    obtain ⟨f, hm, -, h1, -⟩ := ((C289_discover files).2 n).1 hn
    exact h1 (List.mem_append_left _ (hf f hm ▸ hr))
  rw [h]
  exact ⟨rfl, rfl, rfl⟩

/-- Violated: a name that is merely missing is counted as a circular import. -/
theorem C289_missing_name_violated (py : Py) (hadd : Adds py) (pkg : Name) (hloc : Local pkg py) (sh : List Name → List Name)
    (ms l : List Name) (m a b : Name) (hm : m ∈ ms) (ho : (py l m).1 = .importError (a ++ "cannot import name".toList ++ b)) :
    clean (run py pkg sh ms l) = false := by
  rw [← Bool.not_eq_true, C289_verdict py hadd pkg hloc]
  intro h
  refine h m hm ?_
  rw [ho]
  refine Or.inr ⟨a.map Char.toLower, b.map Char.toLower, ?_⟩
  have : ("cannot import name".toList).map Char.toLower = "cannot import name".toList := by decide
  simp only [List.map_append, this]

/-- Violated: a module of another package whose name begins with that of the package is unloaded too. -/
theorem C289_prefix_violated (pkg s : Name) (l : List Name) : pkg ++ s ∉ clear pkg l := by
  rw [C288_clear]
  rintro ⟨-, h⟩
  exact h (List.prefix_append _ _)

/-- Violated: with the directory of the package as argument nothing is tested: the program ends with an error; it works only without. -/
theorem C289_argument_violated (r : Report) :
    main true true r = .attributeError ∧ main false true r = .ran (clean r) ∧ ∀ a, main a false r = .missing := by
  refine ⟨rfl, rfl, fun a => ?_⟩
  cases a <;> rfl

/-! ### Examples -/

/-- the package above and its tests meet the hypotheses of `C288_individual`; both modules import on their own -/
example : (individual brokenPy ['p'] brokenMods []).1 = [⟨"p.core".toList, true, none, false⟩, ⟨"p.base".toList, true, none, false⟩] := by
  rw [C288_individual brokenPy brokenPy_adds ['p'] brokenPy_local]; decide

/-- loaded before, `p.core` breaks `p.base` -/
example : (individual brokenPy ['p'] brokenMods ["p.core".toList]).2.1 =
    [("p.base".toList, "partially initialized module (circular import)".toList)] := by decide

/-- six key modules: fifteen pairs -/
example : (pairs [['a'], ['b'], ['c'], ['d'], ['e'], ['f'], ['g']]).length = 15 := by decide

/-- a module of a subpackage, and the package itself -/
example : moduleName ⟨["home".toList, "swp".toList], ["core".toList], "ions".toList⟩ = "swp.core.ions".toList ∧
    moduleName ⟨["home".toList, "swp".toList], [], "__init__".toList⟩ = "swp".toList := by decide

/-- a package of which one module asks for a name that does not exist: reported as circular -/
example : clean (run (fun l m => if m = ['p'] then (.importError "cannot import name 'x' from 'numpy'".toList, l) else (.ok, m :: l))
    ['p'] id [['p'], ['q']] []) = false :=
  C289_missing_name_violated _ (by intro l m n hn; dsimp only; split; exact hn; exact List.mem_cons_of_mem _ hn) ['p']
    (by
      intro l l' m h
      dsimp only
      split
      · exact ⟨rfl, h⟩
      · exact ⟨rfl, fun n hn => by simp only [List.mem_cons, h n hn]⟩)
    id _ [] ['p'] [] " 'x' from 'numpy'".toList (by decide) (by decide)

/-- base modules come first, whatever the shuffle -/
example : ∃ a b c d e, orders List.reverse brokenMods = [a, b, c ++ d, e] ∧ (c ++ d).Perm brokenMods ∧ e.length = 2 := by
  obtain ⟨a, b, c, d, e, h, -, -, -, -, h1, -, -, -, -, -, h2⟩ := C288_orders List.reverse List.reverse_perm brokenMods
  exact ⟨a, b, c, d, e, h, h1, h2⟩

/-- a checkout below `tests` -/
example : discover [⟨["tests".toList, "swp".toList], [], "plasma".toList⟩] = [] ∧
    "tests".toList ∈ ["tests".toList, "swp".toList] :=
  ⟨(C289_tests_violated brokenPy [] id ["tests".toList, "swp".toList] (by decide) _ (by simp) []).1, by decide⟩

end DynImp
end SW
