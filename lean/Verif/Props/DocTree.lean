import Verif.DocTree
import Verif.Props.DocScripts
import Mathlib.Data.List.Basic
import Mathlib.Tactic.Ring
import Mathlib.Tactic.Linarith
import Mathlib.Tactic.FieldSimp

/-!
# Docstring analysers: properties

C275 what is counted, C276 coverage and the report, C277 the baseline, C278 the validator.
-/

namespace SW
namespace DocTree

open Scripts

/-! ### Specification: a file as the sequence of its definitions -/

/-- what a reader of the file meets, from top to bottom: a class begins, a class ends, a function begins -/
inductive Ev where
  | opens (name : Txt) (doc : Option Txt) (line : Nat)
  | closes
  | defines (name : Txt) (doc : Option Txt) (line : Nat)

mutual
def events : Node → List Ev
  | .cls n d l b => .opens n d l :: (eventsAll b ++ [.closes])
  | .fn n d l _ b => .defines n d l :: eventsAll b
  | .other c => eventsAll c
def eventsAll : List Node → List Ev
  | [] => []
  | n :: r => events n ++ eventsAll r
end

def Ev.isClass : Ev → Bool
  | .opens _ _ _ => true
  | _ => false
def Ev.isFn : Ev → Bool
  | .defines _ _ _ => true
  | _ => false
def Ev.boundary : Ev → Bool
  | .defines _ _ _ => false
  | _ => true
def Ev.documented : Ev → Bool
  | .opens _ d _ => hasDoc d
  | .defines _ d _ => hasDoc d
  | .closes => false

/-- the class a place is attributed to: that of the last class boundary above it, if it is a beginning -/
def attributed (above : List Ev) : Option Txt :=
  match (above.filter Ev.boundary).getLast? with
  | some (.opens n _ _) => some n
  | _ => none

/-- a function of the file: name, docstring, line -/
abbrev Fn := Txt × Option Txt × Nat

/-- every class and function, with the class it is attributed to -/
def placed (evs : List Ev) : List (Ev × Option Txt) := evs.mapIdx (fun i e => (e, attributed (evs.take i)))

mutual
/-- the functions of a statement with the innermost class around each; `c` is the class around the statement -/
def lexical (c : Option Txt) : Node → List (Ev × Option Txt)
  | .cls n _ _ b => lexicalAll (some n) b
  | .fn n d l _ b => (.defines n d l, c) :: lexicalAll c b
  | .other ch => lexicalAll c ch
def lexicalAll (c : Option Txt) : List Node → List (Ev × Option Txt)
  | [] => []
  | n :: r => lexical c n ++ lexicalAll c r
end

/-! ### The visitor reads the file from top to bottom -/

def step (s : Cov) : Ev → Cov
  | .opens n d l => enterClass n d l s
  | .closes => { s with cur := none }
  | .defines n d l => enterFn n d l s

mutual
theorem visit_fold : (n : Node) → ∀ s, visit n s = (events n).foldl step s
  | .cls n d l b => by
    intro s
    rw [visit, events, visitAll_fold b]
    simp [step]
  | .fn n d l p b => by
    intro s
    rw [visit, events, visitAll_fold b]
    simp [step]
  | .other c => by
    intro s
    rw [visit, events, visitAll_fold c]
theorem visitAll_fold : (b : List Node) → ∀ s, visitAll b s = (eventsAll b).foldl step s
  | [] => by intro s; rfl
  | n :: r => by
    intro s
    rw [visitAll, eventsAll, visit_fold n, visitAll_fold r, List.foldl_append]
end

theorem attributed_snoc (l : List Ev) (e : Ev) :
    attributed (l ++ [e]) = match e with
      | .opens n _ _ => some n
      | .closes => none
      | .defines _ _ _ => attributed l := by
  cases e <;> simp [attributed, Ev.boundary, List.filter_append]

theorem placed_snoc (l : List Ev) (e : Ev) : placed (l ++ [e]) = placed l ++ [(e, attributed l)] := by
  unfold placed
  rw [List.mapIdx_concat]
  congr 1
  · apply List.ext_getElem?
    intro i
    simp only [List.getElem?_mapIdx]
    by_cases h : i < l.length
    · rw [List.take_append_of_le_length (by omega)]
    · simp [List.getElem?_eq_none (not_lt.mp h)]
  · simp

/-- an entry of the list of missing docstrings, as the English says it -/
def wanted : Ev × Option Txt → Option Missing
  | (.opens n d l, _) => if hasDoc d then none else some ⟨"class", n, l, some n⟩
  | (.closes, _) => none
  | (.defines n d l, some c) =>
    if hasDoc d ∨ (underscore n = true ∧ n ≠ initName) then none else some ⟨"method", qualified c n, l, some c⟩
  | (.defines n d l, none) => if hasDoc d ∨ underscore n = true then none else some ⟨"function", n, l, none⟩

def isMethod (p : Ev × Option Txt) : Bool := p.1.isFn && p.2.isSome
def isPlainFn (p : Ev × Option Txt) : Bool := p.1.isFn && p.2.isNone

theorem miss_stats (s : Cov) (b : Bool) (m : Missing) : (s.miss b m).stats = s.stats := by unfold Cov.miss; split <;> rfl
theorem miss_cur (s : Cov) (b : Bool) (m : Missing) : (s.miss b m).cur = s.cur := by unfold Cov.miss; split <;> rfl
theorem miss_missing (s : Cov) (b : Bool) (m : Missing) : (s.miss b m).missing = s.missing ++ (if b then [] else [m]) := by
  unfold Cov.miss; split <;> simp_all

theorem fold_counts (s0 : Cov) (h0 : s0.cur = none) (evs : List Ev) :
    (evs.foldl step s0).cur = attributed evs ∧
    (evs.foldl step s0).missing = s0.missing ++ (placed evs).filterMap wanted ∧
    (evs.foldl step s0).stats =
      { s0.stats with
        classes := s0.stats.classes + evs.countP Ev.isClass
        functions := s0.stats.functions + (placed evs).countP isPlainFn
        methods := s0.stats.methods + (placed evs).countP isMethod
        docClasses := s0.stats.docClasses + evs.countP (fun e => e.isClass && e.documented)
        docFunctions := s0.stats.docFunctions + (placed evs).countP (fun p => isPlainFn p && p.1.documented)
        docMethods := s0.stats.docMethods + (placed evs).countP (fun p => isMethod p && p.1.documented) } := by
  induction evs using List.reverseRecOn with
  | nil => simp [attributed, placed, h0]
  | append_singleton l e ih =>
    obtain ⟨i1, i2, i3⟩ := ih
    obtain ⟨t, ht⟩ : ∃ t, t = l.foldl step s0 := ⟨_, rfl⟩
    rw [← ht] at i1 i2 i3
    rw [List.foldl_append, List.foldl_cons, List.foldl_nil, ← ht, attributed_snoc, placed_snoc]
    simp only [List.countP_append, List.filterMap_append, List.countP_singleton]
    cases e with
    | opens n d l' =>
      refine ⟨rfl, ?_, ?_⟩
      · show (Cov.miss _ _ _).missing = _
        rw [miss_missing]
        show t.missing ++ _ = _
        rw [i2, List.append_assoc]
        cases h : hasDoc d <;> simp [wanted, h]
      · show (Cov.miss _ _ _).stats = _
        rw [miss_stats]
        show ({ t.stats with classes := t.stats.classes + 1, docClasses := _ } : Stats) = _
        rw [i3]
        simp only [isPlainFn, isMethod, Ev.isFn, Ev.isClass, Ev.documented, Bool.false_and, Bool.true_and, if_true, Nat.add_assoc, Bool.false_eq_true, if_false, Nat.add_zero]
    | closes =>
      refine ⟨rfl, by simp [step, i2, wanted], ?_⟩
      show t.stats = _
      rw [i3]
      simp only [isPlainFn, isMethod, Ev.isFn, Ev.isClass, Ev.documented, Bool.false_and, Nat.add_assoc, Bool.false_eq_true, if_false, Nat.add_zero]
    | defines n d l' =>
      rw [← i1]
      cases hc : t.cur with
      | none =>
        have hs : step t (.defines n d l') = Cov.miss { t with stats := { t.stats with functions := t.stats.functions + 1, docFunctions := t.stats.docFunctions + (if hasDoc d then 1 else 0) } }
            (hasDoc d || underscore n) ⟨"function", n, l', none⟩ := by
          show enterFn n d l' t = _
          unfold enterFn
          rw [hc]
        rw [hs]
        refine ⟨by rw [miss_cur]; exact hc, ?_, ?_⟩
        · rw [miss_missing]
          show t.missing ++ _ = _
          rw [i2, List.append_assoc]
          cases h : hasDoc d <;> cases hu : underscore n <;> simp [wanted, h, hu]
        · rw [miss_stats]
          show ({ t.stats with functions := t.stats.functions + 1, docFunctions := _ } : Stats) = _
          rw [i3]
          simp only [isPlainFn, isMethod, Ev.isFn, Ev.isClass, Ev.documented, Bool.false_and, Bool.true_and, if_true, Nat.add_assoc, Bool.false_eq_true, if_false, Nat.add_zero,
            Option.isNone_none, Option.isSome_none]
      | some c =>
        have hs : step t (.defines n d l') = Cov.miss { t with stats := { t.stats with methods := t.stats.methods + 1, docMethods := t.stats.docMethods + (if hasDoc d then 1 else 0) } }
            (hasDoc d || (underscore n && n != initName)) ⟨"method", qualified c n, l', some c⟩ := by
          show enterFn n d l' t = _
          unfold enterFn
          rw [hc]
        rw [hs]
        refine ⟨by rw [miss_cur]; exact hc, ?_, ?_⟩
        · rw [miss_missing]
          show t.missing ++ _ = _
          rw [i2, List.append_assoc]
          by_cases hi : n = initName <;> cases h : hasDoc d <;> cases hu : underscore n <;> simp [wanted, h, hu, hi]
        · rw [miss_stats]
          show ({ t.stats with methods := t.stats.methods + 1, docMethods := _ } : Stats) = _
          rw [i3]
          simp only [isPlainFn, isMethod, Ev.isFn, Ev.isClass, Ev.documented, Bool.false_and, Bool.true_and, if_true, Nat.add_assoc, Bool.false_eq_true, if_false, Nat.add_zero,
            Option.isNone_some, Option.isSome_some]

/-! ### Balanced class boundaries -/

def after (c : Option Txt) : List Ev → Option Txt
  | [] => c
  | .opens n _ _ :: r => after (some n) r
  | .closes :: r => after none r
  | .defines _ _ _ :: r => after c r

theorem after_append (c : Option Txt) (a b : List Ev) : after c (a ++ b) = after (after c a) b := by
  induction a generalizing c with
  | nil => rfl
  | cons e a ih => cases e <;> simp [after, ih]

theorem after_attributed (a : List Ev) : after none a = attributed a := by
  induction a using List.reverseRecOn with
  | nil => rfl
  | append_singleton l e ih => rw [after_append, attributed_snoc, ih]; cases e <;> rfl

mutual
theorem after_events : (n : Node) → after none (events n) = none
  | .cls n d l b => by rw [events, after, after_append]; rfl
  | .fn n d l p b => by rw [events, after]; exact after_eventsAll b
  | .other c => by rw [events]; exact after_eventsAll c
theorem after_eventsAll : (b : List Node) → after none (eventsAll b) = none
  | [] => rfl
  | n :: r => by rw [eventsAll, after_append, after_events n]; exact after_eventsAll r
end

theorem attributed_end (b : List Node) : attributed (eventsAll b) = none := by
  rw [← after_attributed]; exact after_eventsAll b

theorem analyze_eq (path : Txt) (f : File) :
    (analyze path f).cur = none ∧
    (analyze path f).missing = (if hasDoc f.doc then [] else [⟨"module", path, 1, none⟩]) ++ (placed (eventsAll f.body)).filterMap wanted ∧
    (analyze path f).stats =
      { modules := 1, docModules := if hasDoc f.doc then 1 else 0
        classes := (eventsAll f.body).countP Ev.isClass
        functions := (placed (eventsAll f.body)).countP isPlainFn
        methods := (placed (eventsAll f.body)).countP isMethod
        docClasses := (eventsAll f.body).countP (fun e => e.isClass && e.documented)
        docFunctions := (placed (eventsAll f.body)).countP (fun p => isPlainFn p && p.1.documented)
        docMethods := (placed (eventsAll f.body)).countP (fun p => isMethod p && p.1.documented) } := by
  obtain ⟨s0, hs0⟩ : ∃ s0 : Cov, s0 = Cov.miss { stats := { modules := 1, docModules := if hasDoc f.doc then 1 else 0 } } (hasDoc f.doc)
      ⟨"module", path, 1, none⟩ := ⟨_, rfl⟩
  have hc : s0.cur = none := by rw [hs0]; unfold Cov.miss; split <;> rfl
  obtain ⟨h1, h2, h3⟩ := fold_counts s0 hc (eventsAll f.body)
  have e : analyze path f = (eventsAll f.body).foldl step s0 := by
    unfold analyze
    simp only []
    rw [← hs0, visitAll_fold]
    unfold properties
    rw [h1, attributed_end]
  rw [e]
  refine ⟨by rw [h1, attributed_end], ?_, ?_⟩
  · rw [h2, hs0]; cases hasDoc f.doc <;> simp [Cov.miss]
  · rw [h3, hs0]; cases hasDoc f.doc <;> simp [Cov.miss]

theorem placed_countP (evs : List Ev) (q : Ev → Bool) : (placed evs).countP (fun p => q p.1) = evs.countP q := by
  induction evs using List.reverseRecOn with
  | nil => rfl
  | append_singleton l e ih => rw [placed_snoc, List.countP_append, List.countP_append, ih]; simp

theorem placed_split (evs : List Ev) (q : Ev × Option Txt → Bool) :
    (placed evs).countP (fun p => isPlainFn p && q p) + (placed evs).countP (fun p => isMethod p && q p) =
      (placed evs).countP (fun p => p.1.isFn && q p) := by
  generalize placed evs = l
  induction l with
  | nil => rfl
  | cons a r ih =>
    simp only [List.countP_cons, ← ih]
    obtain ⟨e, c⟩ := a
    cases e <;> cases c <;> simp [isPlainFn, isMethod, Ev.isFn] <;> omega

/-- C275: a file is counted once, every class once, and every `def` once, as a method or as a function, at whatever depth; a `def` is a method exactly if the last class
boundary above it is the beginning of a class; properties are never counted; with a docstring are those whose docstring is not empty. -/
theorem coverage_counts (path : Txt) (f : File) :
    (analyze path f).stats.modules = 1 ∧
    (analyze path f).stats.classes = (eventsAll f.body).countP Ev.isClass ∧
    (analyze path f).stats.functions + (analyze path f).stats.methods = (eventsAll f.body).countP Ev.isFn ∧
    (analyze path f).stats.methods = (placed (eventsAll f.body)).countP (fun p => p.1.isFn && p.2.isSome) ∧
    (analyze path f).stats.properties = 0 ∧ (analyze path f).stats.docProperties = 0 ∧
    (analyze path f).stats.docModules = (if hasDoc f.doc then 1 else 0) ∧
    (analyze path f).stats.docClasses = (eventsAll f.body).countP (fun e => e.isClass && e.documented) ∧
    (analyze path f).stats.docFunctions + (analyze path f).stats.docMethods = (eventsAll f.body).countP (fun e => e.isFn && e.documented) ∧
    (analyze path f).stats.docMethods = (placed (eventsAll f.body)).countP (fun p => p.1.isFn && p.2.isSome && p.1.documented) := by
  rw [(analyze_eq path f).2.2]
  refine ⟨rfl, rfl, ?_, rfl, rfl, rfl, rfl, rfl, ?_, rfl⟩
  · have := placed_split (eventsAll f.body) (fun _ => true)
    simp only [Bool.and_true] at this
    show _ + _ = _
    simp only [this]
    exact placed_countP _ _
  · show _ + _ = _
    rw [placed_split (eventsAll f.body) (fun p => p.1.documented)]
    exact placed_countP _ (fun e => e.isFn && e.documented)

mutual
theorem classless_place : (n : Node) → (events n).all (fun e => !e.isClass) = true → ∀ pre, 
    (placed (pre ++ events n)).filter (fun p => p.1.isFn) = (placed pre).filter (fun p => p.1.isFn) ++ lexical (attributed pre) n ∧
      attributed (pre ++ events n) = attributed pre
  | .cls n d l b => by intro h; simp [events, Ev.isClass] at h
  | .fn n d l p b => by
    intro h pre
    rw [events, List.all_cons, Bool.and_eq_true] at h
    obtain ⟨h1, h2⟩ := classless_placeAll b h.2 (pre ++ [.defines n d l])
    rw [events, lexical]
    rw [List.append_assoc, List.singleton_append] at h1 h2
    rw [h1, h2, attributed_snoc, placed_snoc]
    simp [Ev.isFn]
  | .other c => by
    intro h pre
    rw [events] at h ⊢
    rw [lexical]
    exact classless_placeAll c h pre
theorem classless_placeAll : (b : List Node) → (eventsAll b).all (fun e => !e.isClass) = true → ∀ pre, 
    (placed (pre ++ eventsAll b)).filter (fun p => p.1.isFn) = (placed pre).filter (fun p => p.1.isFn) ++ lexicalAll (attributed pre) b ∧
      attributed (pre ++ eventsAll b) = attributed pre
  | [] => by intro _ pre; simp [eventsAll, lexicalAll]
  | n :: r => by
    intro h pre
    rw [eventsAll, List.all_append, Bool.and_eq_true] at h
    obtain ⟨h1, h2⟩ := classless_place n h.1 pre
    obtain ⟨h3, h4⟩ := classless_placeAll r h.2 (pre ++ events n)
    rw [eventsAll, lexicalAll, ← List.append_assoc]
    rw [h3, h4, h1, h2]
    simp
end

mutual
/-- no class has a class anywhere in its body -/
def Shallow : Node → Prop
  | .cls _ _ _ b => (eventsAll b).all (fun e => !e.isClass) = true
  | .fn _ _ _ _ b => ShallowAll b
  | .other c => ShallowAll c
def ShallowAll : List Node → Prop
  | [] => True
  | n :: r => Shallow n ∧ ShallowAll r
end

mutual
theorem shallow_place : (n : Node) → Shallow n → ∀ pre, attributed pre = none →
    (placed (pre ++ events n)).filter (fun p => p.1.isFn) = (placed pre).filter (fun p => p.1.isFn) ++ lexical none n ∧
      attributed (pre ++ events n) = none
  | .cls n d l b => by
    intro h pre hp
    rw [Shallow] at h
    obtain ⟨h1, h2⟩ := classless_placeAll b h (pre ++ [.opens n d l])
    rw [List.append_assoc, List.singleton_append] at h1 h2
    rw [events, lexical]
    have e : pre ++ Ev.opens n d l :: (eventsAll b ++ [.closes]) = (pre ++ Ev.opens n d l :: eventsAll b) ++ [.closes] := by simp
    rw [e, placed_snoc, attributed_snoc, List.filter_append, h1, placed_snoc, attributed_snoc]
    simp [Ev.isFn]
  | .fn n d l p b => by
    intro h pre hp
    rw [Shallow] at h
    obtain ⟨h1, h2⟩ := shallow_placeAll b h (pre ++ [.defines n d l]) (by rw [attributed_snoc]; exact hp)
    rw [List.append_assoc, List.singleton_append] at h1 h2
    rw [events, lexical, h1, h2, placed_snoc, hp]
    simp [Ev.isFn]
  | .other c => by
    intro h pre hp
    rw [Shallow] at h
    rw [events, lexical]
    exact shallow_placeAll c h pre hp
theorem shallow_placeAll : (b : List Node) → ShallowAll b → ∀ pre, attributed pre = none →
    (placed (pre ++ eventsAll b)).filter (fun p => p.1.isFn) = (placed pre).filter (fun p => p.1.isFn) ++ lexicalAll none b ∧
      attributed (pre ++ eventsAll b) = none
  | [] => by intro _ pre hp; simp [eventsAll, lexicalAll, hp]
  | n :: r => by
    intro h pre hp
    rw [ShallowAll] at h
    obtain ⟨h1, h2⟩ := shallow_place n h.1 pre hp
    obtain ⟨h3, h4⟩ := shallow_placeAll r h.2 (pre ++ events n) h2
    rw [eventsAll, lexicalAll, ← List.append_assoc, h3, h4, h1]
    simp
end

/-- C275: in a file with no class inside a class, the functions counted as methods are exactly those defined inside a class, each attributed to the innermost class around it. -/
theorem coverage_methods_lexical (path : Txt) (f : File) (h : ShallowAll f.body) :
    (placed (eventsAll f.body)).filter (fun p => p.1.isFn) = lexicalAll none f.body ∧
    (analyze path f).stats.methods = (lexicalAll none f.body).countP (fun p => p.2.isSome) ∧
    (analyze path f).stats.functions = (lexicalAll none f.body).countP (fun p => p.2.isNone) := by
  have h1 := (shallow_placeAll f.body h [] rfl).1
  simp only [List.nil_append] at h1
  have h2 : (placed (eventsAll f.body)).filter (fun p => p.1.isFn) = lexicalAll none f.body := h1
  refine ⟨h2, ?_, ?_⟩
  · rw [(analyze_eq path f).2.2, ← h2, List.countP_filter]
    apply List.countP_congr
    intro p _
    simp [isMethod, and_comm]
  · rw [(analyze_eq path f).2.2, ← h2, List.countP_filter]
    apply List.countP_congr
    intro p _
    simp [isPlainFn, and_comm]

theorem placed_mid (a b : List Ev) (e : Ev) : (e, attributed a) ∈ placed (a ++ e :: b) := by
  induction b using List.reverseRecOn with
  | nil => rw [placed_snoc]; simp
  | append_singleton l x ih =>
    have : a ++ e :: (l ++ [x]) = (a ++ e :: l) ++ [x] := by simp
    rw [this, placed_snoc]
    exact List.mem_append_left _ ih

theorem eventsAll_append (a b : List Node) : eventsAll (a ++ b) = eventsAll a ++ eventsAll b := by
  induction a with
  | nil => rfl
  | cons n r ih => simp [eventsAll, ih]

/-- C275 (finding): after a class inside a class, the remaining methods of the outer class are taken for functions, and are reported without the class. -/
theorem coverage_nested_class (path : Txt) (doc : Option Txt) (c d n : Txt) (cd dd : Option Txt) (cl dl l : Nat) (p : Bool) (pre db fb rest : List Node)
    (hn : underscore n = false) :
    (Ev.defines n none l, none) ∈ placed (eventsAll [.cls c cd cl (pre ++ [.cls d dd dl db, .fn n none l p fb] ++ rest)]) ∧
    (⟨"function", n, l, none⟩ : Missing) ∈ (analyze path ⟨doc, [.cls c cd cl (pre ++ [.cls d dd dl db, .fn n none l p fb] ++ rest)]⟩).missing := by
  have h : (Ev.defines n none l, none) ∈ placed (eventsAll [.cls c cd cl (pre ++ [.cls d dd dl db, .fn n none l p fb] ++ rest)]) := by
    have e : eventsAll [.cls c cd cl (pre ++ [.cls d dd dl db, .fn n none l p fb] ++ rest)] =
        ((Ev.opens c cd cl :: eventsAll pre) ++ Ev.opens d dd dl :: eventsAll db ++ [Ev.closes]) ++ Ev.defines n none l :: (eventsAll fb ++ eventsAll rest ++ [.closes]) := by
      simp [eventsAll, events, eventsAll_append]
    rw [e]
    have := placed_mid ((Ev.opens c cd cl :: eventsAll pre) ++ Ev.opens d dd dl :: eventsAll db ++ [Ev.closes]) (eventsAll fb ++ eventsAll rest ++ [.closes]) (.defines n none l)
    rw [attributed_snoc] at this
    exact this
  refine ⟨h, ?_⟩
  rw [(analyze_eq path _).2.1]
  apply List.mem_append_right
  rw [List.mem_filterMap]
  exact ⟨_, h, by simp [wanted, hn, hasDoc]⟩

/-- C275: what is listed as missing: the file if it has no docstring, then from top to bottom the classes without one, the methods without one except those whose name begins
with an underscore other than `__init__`, and the functions without one whose name does not begin with an underscore. -/
theorem coverage_missing (path : Txt) (f : File) (m : Missing) :
    m ∈ (analyze path f).missing ↔
      (hasDoc f.doc = false ∧ m = ⟨"module", path, 1, none⟩) ∨
      (∃ n d l, Ev.opens n d l ∈ eventsAll f.body ∧ hasDoc d = false ∧ m = ⟨"class", n, l, some n⟩) ∨
      (∃ n d l c, (Ev.defines n d l, some c) ∈ placed (eventsAll f.body) ∧ hasDoc d = false ∧ (underscore n = false ∨ n = initName) ∧
        m = ⟨"method", qualified c n, l, some c⟩) ∨
      (∃ n d l, (Ev.defines n d l, none) ∈ placed (eventsAll f.body) ∧ hasDoc d = false ∧ underscore n = false ∧ m = ⟨"function", n, l, none⟩) := by
  have mem1 : ∀ evs : List Ev, ∀ e, (∃ c, (e, c) ∈ placed evs) ↔ e ∈ evs := by
    intro evs
    induction evs using List.reverseRecOn with
    | nil => simp [placed]
    | append_singleton l x ih =>
      intro e
      rw [placed_snoc]
      simp only [List.mem_append, List.mem_singleton, Prod.mk.injEq, exists_or, ih]
      simp
  rw [(analyze_eq path f).2.1, List.mem_append, List.mem_filterMap]
  refine or_congr (by cases hasDoc f.doc <;> simp) ?_
  constructor
  · rintro ⟨⟨e, c⟩, hp, hw⟩
    cases e with
    | opens n d l =>
      cases hd : hasDoc d <;> simp [wanted, hd] at hw
      exact Or.inl ⟨n, d, l, (mem1 _ _).1 ⟨c, hp⟩, hd, hw.symm⟩
    | closes => simp [wanted] at hw
    | defines n d l =>
      cases c with
      | none =>
        simp only [wanted] at hw
        split at hw
        · cases hw
        · rename_i hx
          push Not at hx
          exact Or.inr (Or.inr ⟨n, d, l, hp, by simpa using hx.1, by simpa using hx.2, (Option.some.inj hw).symm⟩)
      | some c =>
        simp only [wanted] at hw
        split at hw
        · cases hw
        · rename_i hx
          push Not at hx
          refine Or.inr (Or.inl ⟨n, d, l, c, hp, by simpa using hx.1, ?_, (Option.some.inj hw).symm⟩)
          cases hu : underscore n
          · exact Or.inl rfl
          · exact Or.inr (hx.2 hu)
  · rintro (⟨n, d, l, he, hd, rfl⟩ | ⟨n, d, l, c, hp, hd, hu, rfl⟩ | ⟨n, d, l, hp, hd, hu, rfl⟩)
    · obtain ⟨c, hc⟩ := (mem1 _ _).2 he
      exact ⟨_, hc, by simp [wanted, hd]⟩
    · refine ⟨_, hp, ?_⟩
      simp only [wanted]
      rw [if_neg]
      rintro (h | ⟨h, h'⟩)
      · rw [hd] at h; cases h
      · rcases hu with hu | hu
        · rw [hu] at h; cases h
        · exact h' hu
    · exact ⟨_, hp, by simp [wanted, hd, hu]⟩

end DocTree
end SW
