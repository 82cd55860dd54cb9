import Verif.Props.DocTree

/-!
# Docstring analysers: coverage, the baseline and the validator (C276–C278)
-/

namespace SW
namespace DocTree

open Scripts

/-! ### C276: coverage -/

/-- everything in the file that counts: the file itself, its classes and its functions -/
def itemCount (f : File) : Nat := 1 + (eventsAll f.body).countP Ev.isClass + (eventsAll f.body).countP Ev.isFn
/-- … and has a docstring -/
def documentedCount (f : File) : Nat :=
  (if hasDoc f.doc then 1 else 0) + (eventsAll f.body).countP (fun e => e.isClass && e.documented) + (eventsAll f.body).countP (fun e => e.isFn && e.documented)

theorem total_eq (path : Txt) (f : File) : (analyze path f).stats.total = itemCount f := by
  obtain ⟨h1, h2, h3, _, h5, _⟩ := coverage_counts path f
  unfold Stats.total itemCount
  omega

theorem documented_eq (path : Txt) (f : File) : (analyze path f).stats.documented = documentedCount f := by
  obtain ⟨_, _, _, _, _, h6, h7, h8, h9, _⟩ := coverage_counts path f
  unfold Stats.documented documentedCount
  omega

theorem countP_and_le (l : List Ev) (p q : Ev → Bool) : l.countP (fun e => p e && q e) ≤ l.countP p :=
  List.countP_mono_left (fun x _ h => (Bool.and_eq_true _ _ ▸ h).1)

theorem countP_and_eq (l : List Ev) (p q : Ev → Bool) : l.countP (fun e => p e && q e) = l.countP p ↔ ∀ e ∈ l, p e = true → q e = true := by
  induction l with
  | nil => simp
  | cons a r ih =>
    have := countP_and_le r p q
    simp only [List.countP_cons, List.mem_cons, forall_eq_or_imp]
    cases hp : p a <;> cases hq : q a <;> simp [hq, ← ih] <;> omega

/-- C276: the coverage of a file lies between 0 and 100 per cent, it is 100 exactly if the file, every class and every function in it - private ones included - has a
docstring. -/
theorem coverage_range (path : Txt) (f : File) :
    (analyze path f).stats.coverage = (documentedCount f : ℚ) / itemCount f * 100 ∧
    0 ≤ (analyze path f).stats.coverage ∧ (analyze path f).stats.coverage ≤ 100 ∧
    ((analyze path f).stats.coverage = 100 ↔
      hasDoc f.doc = true ∧ ∀ e ∈ eventsAll f.body, e.isClass = true ∨ e.isFn = true → e.documented = true) := by
  have e : (analyze path f).stats.coverage = (documentedCount f : ℚ) / itemCount f * 100 := by
    unfold Stats.coverage
    rw [total_eq, documented_eq, if_pos (by unfold itemCount; omega)]
  have hpos : (0 : ℚ) < itemCount f := by
    have : 0 < itemCount f := by unfold itemCount; omega
    exact_mod_cast this
  have h1 := countP_and_le (eventsAll f.body) Ev.isClass Ev.documented
  have h2 := countP_and_le (eventsAll f.body) Ev.isFn Ev.documented
  have h3 : (if hasDoc f.doc then 1 else 0) ≤ 1 := by split <;> omega
  have hle : documentedCount f ≤ itemCount f := by unfold itemCount documentedCount; omega
  have hle' : (documentedCount f : ℚ) ≤ itemCount f := by exact_mod_cast hle
  have hq : (documentedCount f : ℚ) / itemCount f ≤ 1 := (div_le_one hpos).2 hle'
  have hq0 : (0 : ℚ) ≤ (documentedCount f : ℚ) / itemCount f := div_nonneg (by exact_mod_cast Nat.zero_le _) hpos.le
  refine ⟨e, by rw [e]; linarith, by rw [e]; linarith, ?_⟩
  rw [e]
  have : (documentedCount f : ℚ) / itemCount f * 100 = 100 ↔ documentedCount f = itemCount f := by
    constructor
    · intro h
      have h' : (documentedCount f : ℚ) / itemCount f = 1 := by linarith
      rw [div_eq_one_iff_eq hpos.ne'] at h'
      exact_mod_cast h'
    · intro h
      rw [h, div_self hpos.ne', one_mul]
  rw [this]
  have c1 := countP_and_eq (eventsAll f.body) Ev.isClass Ev.documented
  have c2 := countP_and_eq (eventsAll f.body) Ev.isFn Ev.documented
  constructor
  · intro h
    unfold itemCount documentedCount at h
    have a1 : (if hasDoc f.doc then 1 else 0) = 1 := by omega
    refine ⟨by by_contra hn; rw [if_neg hn] at a1; omega, ?_⟩
    rintro x hx (hc | hc)
    · exact c1.1 (by omega) x hx hc
    · exact c2.1 (by omega) x hx hc
  · rintro ⟨hd, hall⟩
    unfold itemCount documentedCount
    rw [if_pos hd, c1.2 (fun x hx hc => hall x hx (Or.inl hc)), c2.2 (fun x hx hc => hall x hx (Or.inr hc))]

/-- a function without docstring that is not listed: its name begins with an underscore, and it is not the `__init__` of a class -/
def unlisted (p : Ev × Option Txt) : Bool :=
  match p with
  | (.defines n d _, some _) => !hasDoc d && underscore n && n != initName
  | (.defines n d _, none) => !hasDoc d && underscore n
  | _ => false

/-- C276 (finding): what lowers the coverage is what is listed plus the private functions without docstring, which are not: a file can stay below 100 per cent with
nothing listed as missing. -/
theorem coverage_unlisted (path : Txt) (f : File) :
    itemCount f = documentedCount f + (analyze path f).missing.length + (placed (eventsAll f.body)).countP unlisted := by
  rw [(analyze_eq path f).2.1, List.length_append]
  have key : ∀ evs : List Ev, evs.countP Ev.isClass + evs.countP Ev.isFn =
      evs.countP (fun e => e.isClass && e.documented) + evs.countP (fun e => e.isFn && e.documented) + ((placed evs).filterMap wanted).length
        + (placed evs).countP unlisted := by
    intro evs
    induction evs using List.reverseRecOn with
    | nil => rfl
    | append_singleton l e ih =>
      rw [placed_snoc]
      simp only [List.countP_append, List.filterMap_append, List.length_append, List.countP_singleton]
      generalize List.countP Ev.isClass l = k1 at *
      generalize List.countP Ev.isFn l = k2 at *
      generalize List.countP (fun e : Ev => e.isClass && e.documented) l = k3 at *
      generalize List.countP (fun e : Ev => e.isFn && e.documented) l = k4 at *
      generalize (List.filterMap wanted (placed l)).length = k5 at *
      generalize List.countP unlisted (placed l) = k6 at *
      cases e with
      | opens n d l' => cases h : hasDoc d <;> simp [Ev.isClass, Ev.isFn, Ev.documented, wanted, unlisted, h] <;> omega
      | closes => simp [Ev.isClass, Ev.isFn, wanted, unlisted, List.filterMap_cons]; omega
      | defines n d l' =>
        cases attributed l with
        | none =>
          cases h : hasDoc d <;> cases hu : underscore n <;> simp [Ev.isClass, Ev.isFn, Ev.documented, wanted, unlisted, h, hu] <;> omega
        | some c =>
          by_cases hi : n = initName <;> cases h : hasDoc d <;> cases hu : underscore n <;>
            simp [Ev.isClass, Ev.isFn, Ev.documented, wanted, unlisted, h, hu, hi] <;> omega
  have k := key (eventsAll f.body)
  unfold itemCount documentedCount
  cases hasDoc f.doc <;> simp <;> omega

/-- the files the report is about: those not named `test_…` and parsed -/
def analysed (files : List Source) : List (Txt × File) :=
  files.filterMap (fun f => if "test_".toList.isPrefixOf f.name then none else f.tree.map (fun t => (f.path, t)))

theorem report_fold (files : List Source) (r : Report) :
    ((files.filter (fun f => !("test_".toList.isPrefixOf f.name))).foldl (fun r f =>
      match f.tree with
      | none => r
      | some t =>
        let c := analyze f.path t
        ({ totals := r.totals.add c.stats, entries := r.entries ++ [⟨f.path, c.stats.coverage, c.missing⟩] } : Report)) r).entries
      = r.entries ++ (analysed files).map (fun p => ⟨p.1, (analyze p.1 p.2).stats.coverage, (analyze p.1 p.2).missing⟩) ∧
    ((files.filter (fun f => !("test_".toList.isPrefixOf f.name))).foldl (fun r f =>
      match f.tree with
      | none => r
      | some t =>
        let c := analyze f.path t
        ({ totals := r.totals.add c.stats, entries := r.entries ++ [⟨f.path, c.stats.coverage, c.missing⟩] } : Report)) r).totals
      = (analysed files).foldl (fun t p => t.add (analyze p.1 p.2).stats) r.totals := by
  induction files generalizing r with
  | nil => simp [analysed]
  | cons f fs ih =>
    cases ht : "test_".toList.isPrefixOf f.name with
    | true =>
      have e : analysed (f :: fs) = analysed fs := by simp only [analysed, List.filterMap_cons, ht, if_true]
      rw [e, List.filter_cons_of_neg (by rw [ht]; decide)]
      exact ih r
    | false =>
      rw [List.filter_cons_of_pos (by rw [ht]; decide), List.foldl_cons]
      cases hf : f.tree with
      | none =>
        have e : analysed (f :: fs) = analysed fs := by simp only [analysed, List.filterMap_cons, ht, hf, Option.map_none]; simp
        rw [e]
        exact ih r
      | some t =>
        have e : analysed (f :: fs) = (f.path, t) :: analysed fs := by simp only [analysed, List.filterMap_cons, ht, hf, Option.map_some]; simp
        rw [e]
        have := ih { totals := r.totals.add (analyze f.path t).stats, entries := r.entries ++ [⟨f.path, (analyze f.path t).stats.coverage, (analyze f.path t).missing⟩] }
        refine ⟨?_, ?_⟩
        · rw [this.1]; simp
        · rw [this.2]; simp

theorem sum_stats (l : List (Txt × File)) (t : Stats) :
    (l.foldl (fun t p => t.add (analyze p.1 p.2).stats) t).total = t.total + (l.map (fun p => itemCount p.2)).sum ∧
    (l.foldl (fun t p => t.add (analyze p.1 p.2).stats) t).documented = t.documented + (l.map (fun p => documentedCount p.2)).sum := by
  induction l generalizing t with
  | nil => simp
  | cons p l ih =>
    obtain ⟨h1, h2⟩ := ih (t.add (analyze p.1 p.2).stats)
    rw [List.foldl_cons, h1, h2]
    have a := total_eq p.1 p.2
    have b := documented_eq p.1 p.2
    simp only [List.map_cons, List.sum_cons]
    unfold Stats.total at *
    unfold Stats.documented at *
    simp only [Stats.add]
    omega

/-- C276: the report: one entry for each file that is not named `test_…` and can be parsed, in order; the others do not enter the totals either.  The totals are the numbers
of items and of documented items over these files, so the overall coverage weights a file by its size. -/
theorem report_totals (files : List Source) :
    (report files).entries.map (fun e => (e.path, e.coverage)) =
      (analysed files).map (fun p => (p.1, (documentedCount p.2 : ℚ) / itemCount p.2 * 100)) ∧
    (report files).totals.total = ((analysed files).map (fun p => itemCount p.2)).sum ∧
    (report files).totals.documented = ((analysed files).map (fun p => documentedCount p.2)).sum := by
  obtain ⟨h1, h2⟩ := report_fold files {}
  have e1 : (report files).entries = _ := h1
  have e2 : (report files).totals = _ := h2
  obtain ⟨h3, h4⟩ := sum_stats (analysed files) {}
  refine ⟨?_, ?_, ?_⟩
  · rw [e1]
    simp only [List.nil_append, List.map_map]
    apply List.map_congr_left
    intro p _
    simp only [Function.comp, (coverage_range p.1 p.2).1]
  · rw [e2, h3]; simp [Stats.total]
  · rw [e2, h4]; simp [Stats.documented]

/-- C276: each module of the report is complete, or in exactly one of the three lists of priorities, high below 50, medium from 50 to below 80, low from 80 per cent. -/
theorem report_priorities (files : List Source) (e : Entry) (he : e ∈ (report files).entries) :
    (e.coverage = 100 ∧ e ∉ (report files).high ∧ e ∉ (report files).medium ∧ e ∉ (report files).low) ∨
    (e.coverage < 50 ∧ e ∈ (report files).high ∧ e ∉ (report files).medium ∧ e ∉ (report files).low) ∨
    (50 ≤ e.coverage ∧ e.coverage < 80 ∧ e ∉ (report files).high ∧ e ∈ (report files).medium ∧ e ∉ (report files).low) ∨
    (80 ≤ e.coverage ∧ e.coverage < 100 ∧ e ∉ (report files).high ∧ e ∉ (report files).medium ∧ e ∈ (report files).low) := by
  have hle : e.coverage ≤ 100 := by
    have h1 : (report files).entries = _ := (report_fold files {}).1
    rw [h1] at he
    simp only [List.nil_append, List.mem_map] at he
    obtain ⟨p, _, rfl⟩ := he
    exact (coverage_range p.1 p.2).2.2.1
  simp only [Report.high, Report.medium, Report.low, List.mem_filter, he, true_and, decide_eq_true_eq]
  rcases lt_or_ge e.coverage 50 with h | h
  · right; left; refine ⟨h, h, ?_, ?_⟩ <;> (rintro ⟨a, _⟩; linarith)
  · rcases lt_or_ge e.coverage 80 with h' | h'
    · right; right; left; exact ⟨h, h', by linarith, ⟨h, h'⟩, by rintro ⟨a, _⟩; linarith⟩
    · rcases lt_or_eq_of_le hle with h'' | h''
      · right; right; right; exact ⟨h', h'', by linarith, by rintro ⟨_, b⟩; linarith, ⟨h', h''⟩⟩
      · left; refine ⟨h'', by linarith, by rintro ⟨_, b⟩; linarith, by rintro ⟨_, b⟩; linarith⟩

/-! ### C277: the baseline -/

mutual
/-- the functions that are statements of a class body -/
def methodsOf : Node → List (Option Txt)
  | .cls _ _ _ b => b.filterMap (fun n => match n with | .fn _ d _ _ _ => some d | _ => none) ++ methodsAll b
  | .fn _ _ _ _ b => methodsAll b
  | .other c => methodsAll c
def methodsAll : List Node → List (Option Txt)
  | [] => []
  | n :: r => methodsOf n ++ methodsAll r
end

def Base.formats (s : Base) : Nat := s.numpy + s.google + s.informal + s.empty

/-- how the counters of `t` differ from those of `s` -/
structure Grown (s t : Base) (fs cs ms dfs dcs dms : Nat) : Prop where
  functions : t.functions = s.functions + fs
  classes : t.classes = s.classes + cs
  methods : t.methods = s.methods + ms
  docFunctions : t.docFunctions = s.docFunctions + dfs
  docClasses : t.docClasses = s.docClasses + dcs
  docMethods : t.docMethods = s.docMethods + dms
  formats : t.formats = s.formats + (dfs + dcs + dms)
  issues : t.issues.length + (dfs + dcs + dms) = s.issues.length + (fs + cs + ms)

theorem Grown.refl (s : Base) : Grown s s 0 0 0 0 0 0 := ⟨rfl, rfl, rfl, rfl, rfl, rfl, rfl, rfl⟩

theorem Grown.trans {s t u : Base} {a b c d e f a' b' c' d' e' f' : Nat} (h : Grown s t a b c d e f) (h' : Grown t u a' b' c' d' e' f') :
    Grown s u (a + a') (b + b') (c + c') (d + d') (e + e') (f + f') := by
  obtain ⟨h1, h2, h3, h4, h5, h6, h7, h8⟩ := h
  obtain ⟨k1, k2, k3, k4, k5, k6, k7, k8⟩ := h'
  constructor <;> omega

theorem format_fields (d : Txt) (s : Base) :
    (format d s).functions = s.functions ∧ (format d s).classes = s.classes ∧ (format d s).methods = s.methods ∧
    (format d s).docFunctions = s.docFunctions ∧ (format d s).docClasses = s.docClasses ∧ (format d s).docMethods = s.docMethods ∧
    (format d s).formats = s.formats + 1 ∧ (format d s).issues = s.issues := by
  unfold format Base.formats
  split
  · exact ⟨rfl, rfl, rfl, rfl, rfl, rfl, rfl, rfl⟩
  · split
    · exact ⟨rfl, rfl, rfl, rfl, rfl, rfl, by simp only []; omega, rfl⟩
    · split
      · exact ⟨rfl, rfl, rfl, rfl, rfl, rfl, by simp only []; omega, rfl⟩
      · exact ⟨rfl, rfl, rfl, rfl, rfl, rfl, by simp only []; omega, rfl⟩

def one (d : Option Txt) : Nat := if hasDoc d then 1 else 0

theorem grown_fn (n : Txt) (d : Option Txt) (l : Nat) (s : Base) : Grown s (baseFn n d l s) 1 0 0 (one d) 0 0 := by
  unfold baseFn
  rcases d with _ | ⟨_ | ⟨c, t⟩⟩
  · constructor <;> simp [one, hasDoc, Base.formats]
  · constructor <;> simp [one, hasDoc, Base.formats]
  · obtain ⟨h1, h2, h3, h4, h5, h6, h7, h8⟩ := format_fields (c :: t) { s with functions := s.functions + 1, docFunctions := s.docFunctions + 1 }
    constructor
    · exact h1
    · exact h2
    · exact h3
    · exact h4
    · exact h5
    · exact h6
    · exact h7
    · rw [show (format _ _).issues = _ from h8]; simp [one, hasDoc]

theorem grown_cls (n : Txt) (d : Option Txt) (l : Nat) (s : Base) : Grown s (baseCls n d l s) 0 1 0 0 (one d) 0 := by
  unfold baseCls
  rcases d with _ | ⟨_ | ⟨c, t⟩⟩
  · constructor <;> simp [one, hasDoc, Base.formats]
  · constructor <;> simp [one, hasDoc, Base.formats]
  · obtain ⟨h1, h2, h3, h4, h5, h6, h7, h8⟩ := format_fields (c :: t) { s with classes := s.classes + 1, docClasses := s.docClasses + 1 }
    constructor
    · exact h1
    · exact h2
    · exact h3
    · exact h4
    · exact h5
    · exact h6
    · exact h7
    · rw [show (format _ _).issues = _ from h8]; simp [one, hasDoc]

def directDocs (b : List Node) : List (Option Txt) := b.filterMap (fun n => match n with | .fn _ d _ _ _ => some d | _ => none)

theorem grown_method (c : Txt) (b : List Node) (s : Base) :
    Grown s (b.foldl (baseMethod c) s) 0 0 (directDocs b).length 0 0 ((directDocs b).countP hasDoc) := by
  induction b generalizing s with
  | nil => exact Grown.refl s
  | cons n r ih =>
    rw [List.foldl_cons]
    cases n with
    | cls n d l b' => exact ih s
    | other ch => exact ih s
    | fn n d l p b' =>
      have h : Grown s (baseMethod c s (.fn n d l p b')) 0 0 1 0 0 (one d) := by
        unfold baseMethod
        rcases d with _ | ⟨_ | ⟨a, t⟩⟩
        · constructor <;> simp [one, hasDoc, Base.formats]
        · constructor <;> simp [one, hasDoc, Base.formats]
        · obtain ⟨h1, h2, h3, h4, h5, h6, h7, h8⟩ := format_fields (a :: t) { s with methods := s.methods + 1, docMethods := s.docMethods + 1 }
          constructor
          · exact h1
          · exact h2
          · exact h3
          · exact h4
          · exact h5
          · exact h6
          · exact h7
          · rw [show (format _ _).issues = _ from h8]; simp [one, hasDoc]
      have g := h.trans (ih (baseMethod c s (.fn n d l p b')))
      have e : directDocs (.fn n d l p b' :: r) = d :: directDocs r := rfl
      rw [e, List.length_cons, List.countP_cons]
      have e1 : 1 + (directDocs r).length = (directDocs r).length + 1 := Nat.add_comm _ _
      have e2 : one d + (directDocs r).countP hasDoc = (directDocs r).countP hasDoc + (if hasDoc d = true then 1 else 0) := Nat.add_comm _ _
      rw [e1, e2] at g
      exact g

mutual
theorem grown_base : (n : Node) → ∀ s, Grown s (base n s) ((events n).countP Ev.isFn) ((events n).countP Ev.isClass) (methodsOf n).length
    ((events n).countP (fun e => e.isFn && e.documented)) ((events n).countP (fun e => e.isClass && e.documented)) ((methodsOf n).countP hasDoc)
  | .cls n d l b => by
    intro s
    have g := ((grown_cls n d l s).trans (grown_method n b (baseCls n d l s))).trans (grown_baseAll b (b.foldl (baseMethod n) (baseCls n d l s)))
    rw [base, events, methodsOf]
    have e1 : ∀ q : Ev → Bool, q .closes = false → (Ev.opens n d l :: (eventsAll b ++ [.closes])).countP q = (if q (.opens n d l) then 1 else 0) + (eventsAll b).countP q := by
      intro q hq
      simp [List.countP_cons, List.countP_append, hq, Nat.add_comm]
    rw [e1 _ rfl, e1 _ rfl, e1 _ rfl, e1 _ rfl, List.length_append, List.countP_append]
    simpa [Ev.isFn, Ev.isClass, Ev.documented, one, directDocs, Nat.add_assoc] using g
  | .fn n d l p b => by
    intro s
    have g := (grown_fn n d l s).trans (grown_baseAll b (baseFn n d l s))
    rw [base, events, methodsOf]
    have e1 : ∀ q : Ev → Bool, (Ev.defines n d l :: eventsAll b).countP q = (if q (.defines n d l) then 1 else 0) + (eventsAll b).countP q := by
      intro q
      simp [List.countP_cons, Nat.add_comm]
    rw [e1, e1, e1, e1]
    simpa [Ev.isFn, Ev.isClass, Ev.documented, one] using g
  | .other c => by
    intro s
    rw [base, events, methodsOf]
    exact grown_baseAll c s
theorem grown_baseAll : (b : List Node) → ∀ s, Grown s (baseAll b s) ((eventsAll b).countP Ev.isFn) ((eventsAll b).countP Ev.isClass) (methodsAll b).length
    ((eventsAll b).countP (fun e => e.isFn && e.documented)) ((eventsAll b).countP (fun e => e.isClass && e.documented)) ((methodsAll b).countP hasDoc)
  | [] => by intro s; exact Grown.refl s
  | n :: r => by
    intro s
    rw [baseAll, eventsAll, methodsAll]
    simp only [List.countP_append, List.length_append]
    exact (grown_base n s).trans (grown_baseAll r (base n s))
end

/-- C277 (finding): the baseline counts every `def` of the file as a function, and those in a class body once more as methods: the number of code objects, of documented
objects and of missing docstrings counts each method twice. -/
theorem baseline_counts (b : List Node) :
    (baseAll b {}).functions = (eventsAll b).countP Ev.isFn ∧
    (baseAll b {}).classes = (eventsAll b).countP Ev.isClass ∧
    (baseAll b {}).methods = (methodsAll b).length ∧
    (baseAll b {}).docFunctions = (eventsAll b).countP (fun e => e.isFn && e.documented) ∧
    (baseAll b {}).docClasses = (eventsAll b).countP (fun e => e.isClass && e.documented) ∧
    (baseAll b {}).docMethods = (methodsAll b).countP hasDoc ∧
    (baseAll b {}).issues.length + ((baseAll b {}).docFunctions + (baseAll b {}).docClasses + (baseAll b {}).docMethods) =
      (baseAll b {}).functions + (baseAll b {}).classes + (baseAll b {}).methods ∧
    (baseAll b {}).numpy + (baseAll b {}).google + (baseAll b {}).informal + (baseAll b {}).empty =
      (baseAll b {}).docFunctions + (baseAll b {}).docClasses + (baseAll b {}).docMethods := by
  obtain ⟨h1, h2, h3, h4, h5, h6, h7, h8⟩ := grown_baseAll b {}
  unfold Base.formats at h7
  simp only [Nat.zero_add, List.length_nil] at h1 h2 h3 h4 h5 h6 h7 h8
  refine ⟨h1, h2, h3, h4, h5, h6, by omega, by omega⟩

mutual
theorem methods_le_node : (n : Node) → (methodsOf n).length + (directDocs [n]).length ≤ (events n).countP Ev.isFn
  | .cls n d l b => by
    have := methods_le b
    rw [methodsOf, events]
    simp only [List.length_append, List.countP_cons, List.countP_append, List.countP_nil, Ev.isFn, directDocs] at *
    simp at *
    omega
  | .fn n d l p b => by
    have := methods_le b
    rw [methodsOf, events]
    simp only [List.countP_cons, Ev.isFn, if_true]
    have e : (directDocs [Node.fn n d l p b]).length = 1 := rfl
    omega
  | .other c => by
    have := methods_le c
    rw [methodsOf, events]
    have e : (directDocs [Node.other c]).length = 0 := rfl
    omega
theorem methods_le : (b : List Node) → (methodsAll b).length + (directDocs b).length ≤ (eventsAll b).countP Ev.isFn
  | [] => by simp [methodsAll, directDocs, eventsAll]
  | n :: r => by
    have h1 := methods_le_node n
    have h2 := methods_le r
    rw [methodsAll, eventsAll, List.length_append, List.countP_append]
    have : (directDocs (n :: r)).length = (directDocs [n]).length + (directDocs r).length := by
      cases n <;> simp [directDocs, Nat.add_comm]
    omega
end

mutual
theorem no_class_no_method_node : (n : Node) → (events n).countP Ev.isClass = 0 → methodsOf n = []
  | .cls n d l b => by intro h; simp [events, Ev.isClass] at h
  | .fn n d l p b => by
    intro h
    rw [events, List.countP_cons] at h
    rw [methodsOf]
    exact no_class_no_method b (by omega)
  | .other c => by
    intro h
    rw [events] at h
    rw [methodsOf]
    exact no_class_no_method c h
theorem no_class_no_method : (b : List Node) → (eventsAll b).countP Ev.isClass = 0 → methodsAll b = []
  | [] => by intro _; rfl
  | n :: r => by
    intro h
    rw [eventsAll, List.countP_append] at h
    rw [methodsAll, no_class_no_method_node n (by omega), no_class_no_method r (by omega)]
    rfl
end

/-- C277: there are never more methods than functions. -/
theorem baseline_methods_le (b : List Node) : (baseAll b {}).methods ≤ (baseAll b {}).functions := by
  obtain ⟨h1, _, h3, _⟩ := baseline_counts b
  have := methods_le b
  omega

/-- C277: each docstring is in exactly one format: blank, else NumPy if it has one of the NumPy headings with its underline four spaces in, else Google if it has one of
the Google headings, else informal. -/
theorem baseline_format (d : Txt) (s : Base) :
    (stripWs d = [] → format d s = { s with empty := s.empty + 1 }) ∧
    (stripWs d ≠ [] → (∃ k ∈ numpyMarks, k <:+: stripWs d) → format d s = { s with numpy := s.numpy + 1 }) ∧
    (stripWs d ≠ [] → (∀ k ∈ numpyMarks, ¬ k <:+: stripWs d) → (∃ k ∈ googleMarks, k <:+: stripWs d) → format d s = { s with google := s.google + 1 }) ∧
    (stripWs d ≠ [] → (∀ k ∈ numpyMarks, ¬ k <:+: stripWs d) → (∀ k ∈ googleMarks, ¬ k <:+: stripWs d) →
      format d s = { s with informal := s.informal + 1 }) := by
  have hm : ∀ l : List Txt, l.any (mentions (stripWs d)) = true ↔ ∃ k ∈ l, k <:+: stripWs d := by
    intro l
    rw [List.any_eq_true]
    simp only [mentions, splitFirst_isSome]
  unfold format
  refine ⟨fun h => if_pos h, fun h hn => ?_, fun h hn hg => ?_, fun h hn hg => ?_⟩
  · rw [if_neg h, if_pos ((hm _).2 hn)]
  · rw [if_neg h, if_neg (fun e => by obtain ⟨k, hk, hi⟩ := (hm _).1 e; exact hn k hk hi), if_pos ((hm _).2 hg)]
  · rw [if_neg h, if_neg (fun e => by obtain ⟨k, hk, hi⟩ := (hm _).1 e; exact hn k hk hi),
      if_neg (fun e => by obtain ⟨k, hk, hi⟩ := (hm _).1 e; exact hg k hk hi)]

theorem infix_stripWs (d : Txt) : stripWs d <:+: d := by
  unfold stripWs
  have h1 : d.dropWhile isWs <:+ d := List.dropWhile_suffix _
  have h2 : (d.dropWhile isWs).reverse.dropWhile isWs <:+ (d.dropWhile isWs).reverse := List.dropWhile_suffix _
  have h3 : ((d.dropWhile isWs).reverse.dropWhile isWs).reverse <+: d.dropWhile isWs := by
    have := List.reverse_prefix.2 h2
    rwa [List.reverse_reverse] at this
  exact h3.isInfix.trans h1.isInfix

/-- C277 (finding): `ast.get_docstring` removes the common indentation, so the underline of a heading is not indented; a docstring in which no line starts with four blanks and a
dash is never counted as NumPy, whatever sections it has. -/
theorem baseline_no_numpy (d : Txt) (s : Base) (h : ¬ "\n    -".toList <:+: d) : (format d s).numpy = s.numpy := by
  have hk : ∀ k ∈ numpyMarks, ¬ k <:+: stripWs d := by
    intro k hk hi
    apply h
    refine List.IsInfix.trans ?_ (hi.trans (infix_stripWs d))
    have : ∀ k ∈ numpyMarks, "\n    -".toList <:+: k := by decide +kernel
    exact this k hk
  have hn : ¬ (numpyMarks.any (mentions (stripWs d)) = true) := by
    rw [List.any_eq_true]
    rintro ⟨k, hk1, hk2⟩
    rw [mentions, splitFirst_isSome] at hk2
    exact hk k hk1 hk2
  unfold format
  split
  · rfl
  · split <;> rfl

/-- C277: the files of the baseline: those whose name has no `test_` anywhere, and that can be parsed -/
def baselined (files : List Source) : List File :=
  files.filterMap (fun f => if mentions f.name "test_".toList then none else f.tree)

theorem baseline_sum (files : List Source) (s : Base) :
    (files.filter (fun f => !mentions f.name "test_".toList)).foldl (fun s f =>
      match f.tree with
      | none => s
      | some t => s.add (baseAll t.body {})) s = (baselined files).foldl (fun s t => s.add (baseAll t.body {})) s := by
  induction files generalizing s with
  | nil => rfl
  | cons f fs ih =>
    cases ht : mentions f.name "test_".toList with
    | true =>
      have e : baselined (f :: fs) = baselined fs := by simp only [baselined, List.filterMap_cons, ht, if_true]
      rw [e, List.filter_cons_of_neg (by rw [ht]; decide)]
      exact ih s
    | false =>
      rw [List.filter_cons_of_pos (by rw [ht]; decide), List.foldl_cons]
      cases hf : f.tree with
      | none =>
        have e : baselined (f :: fs) = baselined fs := by simp only [baselined, List.filterMap_cons, ht, hf]; simp
        rw [e]; exact ih s
      | some t =>
        have e : baselined (f :: fs) = t :: baselined fs := by simp only [baselined, List.filterMap_cons, ht, hf]; simp
        rw [e]; exact ih _

theorem baseline_field (q : Base → Nat) (hq : ∀ a b, q (a.add b) = q a + q b) (l : List File) (s : Base) :
    q (l.foldl (fun s t => s.add (baseAll t.body {})) s) = q s + (l.map (fun t => q (baseAll t.body {}))).sum := by
  induction l generalizing s with
  | nil => simp
  | cons t l ih => rw [List.foldl_cons, ih, hq]; simp [Nat.add_assoc]

theorem sum_map_le {l : List File} {p q : File → Nat} (h : ∀ t ∈ l, p t ≤ q t) : (l.map p).sum ≤ (l.map q).sum := by
  induction l with
  | nil => simp
  | cons t l ih =>
    have h1 := h t (List.mem_cons_self)
    have h2 := ih (fun x hx => h x (List.mem_cons_of_mem _ hx))
    simp only [List.map_cons, List.sum_cons]
    omega

theorem sum_zero_iff {l : List Nat} : l.sum = 0 ↔ ∀ x ∈ l, x = 0 := by
  induction l with
  | nil => simp
  | cons t l ih =>
    rw [List.sum_cons, Nat.add_eq_zero_iff, ih]
    simp

/-- C277 (finding): the totals are sums over the files; `main` divides by the numbers of functions, classes and methods one after the other, and so raises `ZeroDivisionError`
exactly if the package has no class with a method: without a method there is none, and otherwise there is a function and a class.  Else the four shares lie between 0 and 100. -/
theorem baseline_shares (files : List Source) :
    (baseline files).1.functions = ((baselined files).map (fun t => (eventsAll t.body).countP Ev.isFn)).sum ∧
    (baseline files).1.methods = ((baselined files).map (fun t => (methodsAll t.body).length)).sum ∧
    ((∃ e, (baseline files).2 = .error e) ↔ ∀ t ∈ baselined files, methodsAll t.body = []) ∧
    (∀ r, (baseline files).2 = .ok r →
      0 ≤ r.functions ∧ r.functions ≤ 100 ∧ 0 ≤ r.classes ∧ r.classes ≤ 100 ∧ 0 ≤ r.methods ∧ r.methods ≤ 100 ∧ 0 ≤ r.overall ∧ r.overall ≤ 100) := by
  obtain ⟨T, hT⟩ : ∃ T : Base, T = (baselined files).foldl (fun s t => s.add (baseAll t.body {})) {} := ⟨_, rfl⟩
  have hb1 : (baseline files).1 = T := by rw [hT]; exact baseline_sum files {}
  have hb2 : (baseline files).2 = (baseline files).1.shares := rfl
  have hb : baseline files = (T, T.shares) := by
    rw [← hb1, ← hb2]
  have f1 : T.functions = ((baselined files).map (fun t => (eventsAll t.body).countP Ev.isFn)).sum := by
    rw [hT, baseline_field Base.functions (fun _ _ => rfl)]
    simp [(baseline_counts _).1]
  have f2 : T.methods = ((baselined files).map (fun t => (methodsAll t.body).length)).sum := by
    rw [hT, baseline_field Base.methods (fun _ _ => rfl)]
    simp [(baseline_counts _).2.2.1]
  have f3 : T.classes = ((baselined files).map (fun t => (eventsAll t.body).countP Ev.isClass)).sum := by
    rw [hT, baseline_field Base.classes (fun _ _ => rfl)]
    simp [(baseline_counts _).2.1]
  have g1 : T.docFunctions = ((baselined files).map (fun t => (eventsAll t.body).countP (fun e => e.isFn && e.documented))).sum := by
    rw [hT, baseline_field Base.docFunctions (fun _ _ => rfl)]
    simp [(baseline_counts _).2.2.2.1]
  have g2 : T.docMethods = ((baselined files).map (fun t => (methodsAll t.body).countP hasDoc)).sum := by
    rw [hT, baseline_field Base.docMethods (fun _ _ => rfl)]
    simp [(baseline_counts _).2.2.2.2.2.1]
  have g3 : T.docClasses = ((baselined files).map (fun t => (eventsAll t.body).countP (fun e => e.isClass && e.documented))).sum := by
    rw [hT, baseline_field Base.docClasses (fun _ _ => rfl)]
    simp [(baseline_counts _).2.2.2.2.1]
  have l1 : T.docFunctions ≤ T.functions := by
    rw [g1, f1]; exact sum_map_le (fun t _ => countP_and_le _ _ _)
  have l2 : T.docMethods ≤ T.methods := by
    rw [g2, f2]; exact sum_map_le (fun t _ => List.countP_le_length)
  have l3 : T.docClasses ≤ T.classes := by
    rw [g3, f3]; exact sum_map_le (fun t _ => countP_and_le _ _ _)
  have pct : ∀ a b : Nat, a ≤ b → 0 < b → 0 ≤ (a : ℚ) / b * 100 ∧ (a : ℚ) / b * 100 ≤ 100 := by
    intro a b h hb
    have hb' : (0 : ℚ) < b := by exact_mod_cast hb
    have h1 : (a : ℚ) / b ≤ 1 := (div_le_one hb').2 (by exact_mod_cast h)
    have h2 : 0 ≤ (a : ℚ) / b := div_nonneg (by exact_mod_cast Nat.zero_le a) hb'.le
    constructor <;> linarith
  have hz : (T.functions = 0 ∨ T.classes = 0 ∨ T.methods = 0) ↔ ∀ t ∈ baselined files, methodsAll t.body = [] := by
    have hm0 : T.methods = 0 ↔ ∀ t ∈ baselined files, methodsAll t.body = [] := by
      rw [f2, sum_zero_iff]
      simp
    rw [← hm0]
    have c1 : T.methods ≤ T.functions := by
      rw [f1, f2]
      exact sum_map_le (fun t _ => by have := methods_le t.body; omega)
    have c2 : T.classes = 0 → T.methods = 0 := by
      rw [f3, f2, sum_zero_iff, sum_zero_iff]
      intro h x hx
      simp only [List.mem_map] at h hx
      obtain ⟨t, ht, rfl⟩ := hx
      have := h _ ⟨t, ht, rfl⟩
      rw [no_class_no_method t.body this]
      rfl
    constructor
    · rintro (h | h | h)
      · omega
      · exact c2 h
      · exact h
    · intro h; exact Or.inr (Or.inr h)
  rw [hb]
  refine ⟨f1, f2, ?_, ?_⟩
  · rw [← hz]
    show (∃ e, T.shares = .error e) ↔ _
    unfold Base.shares
    by_cases h : T.functions = 0 ∨ T.classes = 0 ∨ T.methods = 0
    · rw [if_pos h]; simp [h]
    · rw [if_neg h]; simp [h]
  · intro r hr
    have hr' : T.shares = .ok r := hr
    unfold Base.shares at hr'
    split at hr'
    · cases hr'
    · rename_i h
      push Not at h
      cases hr'
      have p1 := pct _ _ l1 (Nat.pos_of_ne_zero h.1)
      have p2 := pct _ _ l3 (Nat.pos_of_ne_zero h.2.1)
      have p3 := pct _ _ l2 (Nat.pos_of_ne_zero h.2.2)
      have p4 := pct (T.docFunctions + T.docClasses + T.docMethods) (T.functions + T.classes + T.methods) (by omega) (by omega)
      exact ⟨p1.1, p1.2, p2.1, p2.2, p3.1, p3.2, p4.1, p4.2⟩

end DocTree
end SW
