import Verif.Props.TexFull

/-! # The annotation in every notation and with translated names: C212 (continued) -/

namespace SW
namespace Tex

/-! ## Specification -/

/-- a printed number; infinities as `\infty` -/
def plainNum (t : Str) : Str :=
  if t = "inf".toList then "\\infty".toList else if t = "-inf".toList then "-\\infty".toList else t

/-- power-of-ten notation, no uncertainty -/
noncomputable def strippedLine (e : Entry) : Str := e.name.toList ++ " = ".toList ++ shownNum (fmtE e.n e.v) " ".toList

/-- exponent notation -/
noncomputable def sciLine (e : Entry) : Str :=
  e.name.toList ++ " = ".toList ++ plainNum (fmtE e.n e.v) ++ " \\pm ".toList ++ plainNum (fmtE 0 e.u)

/-- exponent notation, no uncertainty -/
noncomputable def sciStrippedLine (e : Entry) : Str := e.name.toList ++ " = ".toList ++ plainNum (fmtE e.n e.v) ++ " ".toList

/-- for a paper: the shortest text of the number, without trailing zeros and then without trailing points -/
def paperLine (txt : Entry → Str) (e : Entry) : Str := e.name.toList ++ " = ".toList ++ rstrip '.' (rstrip '0' (txt e))

/-- the parameters as displayed: those without a translation in their order, then the translated ones in the order of the translations -/
def displayed (es : List Entry) (tr : List (String × String)) : List Entry :=
  es.filter (fun e => decide (e.name ∉ tr.map Prod.fst)) ++
    tr.filterMap (fun k => (es.find? (fun e => decide (e.name = k.1))).map (fun e => { e with name := k.2 }))

/-- translations of existing parameters to new names, none used twice -/
def GoodTranslation (names : List String) (tr : List (String × String)) : Prop :=
  (tr.map Prod.fst).Nodup ∧ (tr.map Prod.snd).Nodup ∧ (∀ k ∈ tr, k.1 ∈ names) ∧ ∀ k ∈ tr, k.2 ∉ names

/-! ## Translations -/

theorem rename_good {α : Type} (d : Dict α) (k0 k1 : String) (kv : String × α) (h0 : d.find? (fun x => decide (x.1 = k0)) = some kv)
    (h1 : k1 ∉ d.map Prod.fst) : rename d k0 k1 = .ok (d.filter (fun x => x.1 ≠ k0) ++ [(k1, kv.2)]) := by
  unfold rename
  rw [h0]
  have : k1 ∉ (d.filter (fun x => x.1 ≠ k0)).map Prod.fst := by
    intro h
    obtain ⟨x, hx, rfl⟩ := List.mem_map.mp h
    exact h1 (List.mem_map.mpr ⟨x, (List.mem_filter.mp hx).1, rfl⟩)
  simp only [if_neg this]

theorem translate_good {α : Type} (tr : List (String × String)) : ∀ d : Dict α, GoodTranslation (d.map Prod.fst) tr →
    translate d tr = .ok (d.filter (fun x => decide (x.1 ∉ tr.map Prod.fst)) ++
      tr.filterMap (fun k => (d.find? (fun x => decide (x.1 = k.1))).map (fun x => (k.2, x.2)))) := by
  induction tr with
  | nil => intro d _; simp [translate]
  | cons k tr ih =>
    rintro d ⟨g1, g2, g3, g4⟩
    obtain ⟨k0, k1⟩ := k
    simp only [List.map_cons, List.nodup_cons] at g1 g2
    have hin : k0 ∈ d.map Prod.fst := g3 (k0, k1) (by simp)
    obtain ⟨kv, hkv⟩ : ∃ kv, d.find? (fun x => decide (x.1 = k0)) = some kv := by
      cases hf : d.find? (fun x => decide (x.1 = k0)) with
      | some kv => exact ⟨kv, rfl⟩
      | none =>
        exfalso
        rw [List.find?_eq_none] at hf
        obtain ⟨x, hx, hx0⟩ := List.mem_map.mp hin
        exact hf x hx (by simp [hx0])
    have h1 : k1 ∉ d.map Prod.fst := g4 (k0, k1) (by simp)
    have hk01 : k0 ≠ k1 := fun h => h1 (h ▸ hin)
    simp only [translate, rename_good d k0 k1 kv hkv h1]
    have hne0 : ∀ q ∈ tr, q.1 ≠ k0 := fun q hq h => g1.1 (List.mem_map.mpr ⟨q, hq, h⟩)
    have hne1 : ∀ q ∈ tr, q.1 ≠ k1 := fun q hq h => h1 (h ▸ g3 q (by simp [hq]))
    rw [ih]
    · congr 1
      rw [List.filter_append, List.filter_filter, List.append_assoc]
      congr 1
      · apply List.filter_congr
        intro x _
        simp only [List.map_cons, List.mem_cons, not_or, Bool.decide_and, ne_eq]
        rw [Bool.and_comm]
      · have hkeep : [(k1, kv.2)].filter (fun x => decide (x.1 ∉ tr.map Prod.fst)) = [(k1, kv.2)] := by
          rw [List.filter_cons_of_pos]
          · rfl
          · simp only [decide_eq_true_eq]
            intro h
            obtain ⟨q, hq, hq1⟩ := List.mem_map.mp h
            exact hne1 q hq hq1
        rw [hkeep, List.filterMap_cons, hkv]
        simp only [Option.map_some, List.cons_append, List.nil_append]
        congr 1
        apply List.filterMap_congr
        intro q hq
        have a0 := hne0 q hq
        have a1 := hne1 q hq
        congr 1
        rw [List.find?_append]
        have : [(k1, kv.2)].find? (fun x => decide (x.1 = q.1)) = none := by
          rw [List.find?_cons_of_neg]
          · rfl
          · simp only [decide_eq_true_eq]; exact fun h => a1 h.symm
        rw [this, Option.or_none, List.find?_filter]
        congr 1
        funext x
        by_cases hx : x.1 = q.1
        · simp [hx, a0]
        · simp [hx]
    · refine ⟨g1.2, g2.2, ?_, ?_⟩
      · intro q hq
        obtain ⟨x, hx, hx0⟩ := List.mem_map.mp (g3 q (by simp [hq]))
        rw [List.map_append, List.mem_append]
        left
        refine List.mem_map.mpr ⟨x, List.mem_filter.mpr ⟨hx, ?_⟩, hx0⟩
        simp only [decide_eq_true_eq, ne_eq]
        rw [hx0]; exact hne0 q hq
      · intro q hq h
        rw [List.map_append, List.mem_append] at h
        rcases h with h | h
        · obtain ⟨x, hx, hx0⟩ := List.mem_map.mp h
          exact g4 q (by simp [hq]) (List.mem_map.mpr ⟨x, (List.mem_filter.mp hx).1, hx0⟩)
        · simp only [List.map_cons, List.map_nil, List.mem_singleton] at h
          exact g2.1 (List.mem_map.mpr ⟨q, hq, h⟩)

/-- translating a dictionary made from entries -/
theorem translate_entries {α : Type} (es : List Entry) (f : Entry → α) (hf : ∀ e nm, f { e with name := nm } = f e) (tr : List (String × String))
    (hg : GoodTranslation (es.map Entry.name) tr) :
    translate (es.map (fun e => (e.name, f e))) tr = .ok ((displayed es tr).map (fun e => (e.name, f e))) := by
  rw [translate_good]
  · congr 1
    unfold displayed
    rw [List.map_append, List.filter_map, List.map_filterMap]
    congr 1
    apply List.filterMap_congr
    intro q _
    rw [List.find?_map, Option.map_map, Option.map_map]
    have : ((fun x : String × α => decide (x.1 = q.1)) ∘ fun e : Entry => (e.name, f e)) = fun e : Entry => decide (e.name = q.1) := rfl
    rw [this]
    cases es.find? (fun e => decide (e.name = q.1)) with
    | none => rfl
    | some e => simp only [Option.map_some, Function.comp, hf]
  · rw [List.map_map]; exact hg

/-- the values and uncertainties under the displayed names -/
theorem texPopt_displayed (r : Report) (es : List Entry) (h : r.Holds es) (hg : GoodTranslation (es.map Entry.name) (r.trans.getD []))
    (hn : ∀ e ∈ es, valUncert e.v e.u = .ok (fmtE e.n e.v ++ " \\pm ".toList ++ fmtE 0 e.u)) :
    texPopt r = .ok ((displayed es (r.trans.getD [])).map (fun e => (e.name, fmtE e.n e.v ++ " \\pm ".toList ++ fmtE 0 e.u))) := by
  have h0 : texPopt { r with trans := none } = .ok (es.map (fun e => (e.name, fmtE e.n e.v ++ " \\pm ".toList ++ fmtE 0 e.u))) :=
    texPopt_ok { r with trans := none } es h rfl hn
  have hbind : texPopt r = (texPopt { r with trans := none }).bind (fun d => renamed d r.trans) := by
    simp only [texPopt, renamed, bind, Except.bind]
    generalize r.popt.mapM (m := Except PyErr) _ = X
    cases X <;> rfl
  rw [hbind, h0]
  simp only [Except.bind]
  cases ht : r.trans with
  | none => simp [renamed, displayed]
  | some tr =>
    rw [ht] at hg
    simp only [renamed, Option.getD_some] at hg ⊢
    exact translate_entries es (fun e => fmtE e.n e.v ++ " \\pm ".toList ++ fmtE 0 e.u) (fun _ _ => rfl) tr hg

theorem displayed_mem (es : List Entry) (tr : List (String × String)) (e : Entry) (he : e ∈ displayed es tr) :
    ∃ e0 ∈ es, e.v = e0.v ∧ e.u = e0.u ∧ e.n = e0.n := by
  unfold displayed at he
  rcases List.mem_append.mp he with he | he
  · exact ⟨e, (List.mem_filter.mp he).1, rfl, rfl, rfl⟩
  · obtain ⟨q, _, hq⟩ := List.mem_filterMap.mp he
    cases hf : es.find? (fun e => decide (e.name = q.1)) with
    | none => rw [hf] at hq; cases hq
    | some e0 =>
      rw [hf] at hq
      simp only [Option.map_some, Option.some.injEq] at hq
      subst hq
      exact ⟨e0, List.mem_of_find?_eq_some hf, rfl, rfl, rfl⟩

/-! ## Conversions of a line -/

theorem infty_eqline (k A : Str) (hi : NoInf k) : infty (k ++ " = ".toList ++ A) = k ++ " = ".toList ++ infty A := by
  have blank : ∀ s : Str, infty (' ' :: s) = ' ' :: infty s := by
    intro s
    unfold infty
    rw [replaceL_cons, if_neg]
    intro hp; have := (List.isPrefixOf_iff_prefix.mp hp); obtain ⟨t, ht⟩ := this; simp at ht
  have : k ++ " = ".toList ++ A = (k ++ " =".toList) ++ ' ' :: A := by
    rw [show " = ".toList = " =".toList ++ [' '] from by decide]; simp
  rw [this, infty_append _ _ (by simp) (by simp), infty_append _ _ (by decide) (by decide), infty_id _ hi,
    infty_id " =".toList (NoInf.of_not_mem (by decide)), blank]
  rw [show " = ".toList = " =".toList ++ [' '] from by decide]; simp

theorem infty_pmline (A B : Str) : infty (A ++ " \\pm ".toList ++ B) = infty A ++ " \\pm ".toList ++ infty B := by
  have blank : ∀ s : Str, infty (' ' :: s) = ' ' :: infty s := by
    intro s
    unfold infty
    rw [replaceL_cons, if_neg]
    intro hp; have := (List.isPrefixOf_iff_prefix.mp hp); obtain ⟨t, ht⟩ := this; simp at ht
  have e : A ++ " \\pm ".toList ++ B = A ++ (" \\pm".toList ++ ' ' :: B) := by
    rw [show " \\pm ".toList = " \\pm".toList ++ [' '] from by decide]; simp
  rw [e, infty_append _ _ (by simp) (by simp), infty_append _ _ (by simp) (by simp), infty_id " \\pm".toList (NoInf.of_not_mem (by decide)), blank]
  rw [show " \\pm ".toList = " \\pm".toList ++ [' '] from by decide]; simp

theorem infty_fmtE (d : ℕ) (v : Fl) : infty (fmtE d v) = plainNum (fmtE d v) := by
  cases v with
  | nan => rw [fmtE_nan, infty_id _ (NoInf.of_not_mem (by decide))]; decide
  | pinf => rw [fmtE_pinf]; unfold infty; simp [plainNum, replaceL]
  | ninf => rw [fmtE_ninf]; unfold infty; simp [plainNum, replaceL]
  | fin x =>
    have he : 'e' ∈ fmtE d (.fin x) := by show 'e' ∈ sciText d _; unfold sciText; simp
    have n1 : fmtE d (.fin x) ≠ "inf".toList := by intro h; rw [h] at he; exact absurd he (by decide)
    have n2 : fmtE d (.fin x) ≠ "-inf".toList := by intro h; rw [h] at he; exact absurd he (by decide)
    unfold plainNum
    rw [if_neg n1, if_neg n2]
    apply infty_id
    apply NoInf.of_not_mem
    left
    show 'i' ∉ sciText d (sci d x)
    unfold sciText
    rw [List.mem_append, not_or]
    constructor
    · intro h; rcases mant_chars d _ _ h with h | h | h <;> exact absurd h (by decide)
    · obtain ⟨t, ht, _, hd, _⟩ := expText_eq (sci d x).e
      rw [ht]
      intro h
      rcases List.mem_cons.mp h with h | h
      · exact absurd h (by decide)
      · rcases List.mem_cons.mp h with h | h
        · split_ifs at h <;> exact absurd h (by decide)
        · have := hd _ h; exact absurd this (by decide)

/-- what is left of the first `\pm` -/
theorem strip_pm (p q : Str) (hp : NoPm p) : (splitPm (p ++ ' ' :: '\\' :: 'p' :: 'm' :: q)).headD [] = p ++ [' '] := by
  have e : p ++ ' ' :: '\\' :: 'p' :: 'm' :: q = (p ++ [' ']) ++ '\\' :: 'p' :: 'm' :: q := by simp
  have hn : NoPm (p ++ [' ']) := hp.append (NoPm.of_not_mem (by decide)) (by decide) (by decide)
  rw [e, splitPm_mid _ _ hn]
  · rfl
  · rintro s ⟨x, hx⟩
    constructor
    · rintro rfl
      have := congrArg List.getLast? hx
      simp at this
    · rintro rfl
      have := congrArg List.getLast? hx
      simp at this

theorem strip_pm' (p q : Str) (hp : NoPm p) (hl : ∃ c, p.getLast? = some c ∧ c ≠ '\\' ∧ c ≠ 'p') :
    (splitPm (p ++ '\\' :: 'p' :: 'm' :: q)).headD [] = p := by
  obtain ⟨c, hc, h1, h2⟩ := hl
  rw [splitPm_mid _ _ hp]
  · rfl
  · rintro s ⟨x, hx⟩
    constructor
    · rintro rfl
      rw [← hx] at hc; simp at hc; exact h1 hc.symm
    · rintro rfl
      rw [← hx] at hc; simp at hc; exact h2 hc.symm

theorem strip_none (l : Str) (h : NoPm l) : (splitPm l).headD [] = l := by rw [splitPm_none l h]; rfl

/-- the value part of a line before any conversion -/
theorem raw_noPm (e : Entry) (h : Shown1 e.name.toList) : NoPm (e.name.toList ++ " = ".toList ++ fmtE e.n e.v) := by
  refine (h.1.2.1.append (NoPm.of_not_mem (by decide)) (by decide) (by decide)).append
    (NoPm.of_not_mem (fmtE_not_mem _ _ _ (by decide) (by decide))) ?_ ?_
  · intro hh; exact fmtE_not_mem e.n e.v 'p' (by decide) (by decide) (List.mem_of_mem_head? hh)
  · intro hh; exact fmtE_not_mem e.n e.v 'm' (by decide) (by decide) (List.mem_of_mem_head? hh)

theorem raw_free (e : Entry) (c : Char) (hn : c ∉ e.name.toList) (h1 : c.isDigit = false) (h2 : c ∉ ['n', 'a', 'i', 'f', '-', '.', 'e', '+'])
    (h3 : c ∉ " = ".toList) (h4 : c ∉ " \\pm ".toList) :
    c ∉ (e.name.toList ++ " = ".toList ++ (fmtE e.n e.v ++ " \\pm ".toList ++ fmtE 0 e.u)) := by
  simp only [List.mem_append, not_or]
  exact ⟨⟨hn, h3⟩, ⟨fmtE_not_mem _ _ _ h1 h2, h4⟩, fmtE_not_mem _ _ _ h1 h2⟩

/-! ## C212 -/

section
variable (table : List (Str × Fl) → Str) (sf : Str → Option Str) (o : Opts) (r : Report) (fs : List Str) (es : List Entry)

/-- a successful fit whose formula has plain lines and whose parameters have plain displayed names, and for which the statistics asked
for are there (`n` points, chi-squared `a`, `b`, R-squared `q`) -/
structure Reports (o : Opts) (r : Report) (fs : List Str) (es : List Entry) (n : ℕ) (a b q : ℝ) : Prop where
  bare : o.Bare
  norel : o.rel = false
  holds : r.Holds es
  trans : GoodTranslation (es.map Entry.name) (r.trans.getD [])
  fitted : ∃ e ∈ es, e.v ≠ Fl.nan
  printed : ∀ e ∈ es, valUncert e.v e.u = .ok (fmtE e.n e.v ++ " \\pm ".toList ++ fmtE 0 e.u)
  func : r.func = Chars.join '\n' fs
  someFunc : fs ≠ []
  plainFunc : ∀ l ∈ fs, Shown1 l
  plainNames : ∀ e ∈ displayed es (r.trans.getD []), Shown1 e.name.toList
  points : o.npts = true → r.npts = some (n : ℤ)
  chi : 0 ≤ a ∧ 0 ≤ b ∧ (o.chisq = true → r.chisq = some (.fin a, .fin b))
  det : o.rsq = true → r.rsq = some (.fin q)

/-- the annotation of `Reports`, each parameter on a line of its own -/
noncomputable def fullText (line : Entry → Str) (o : Opts) (r : Report) (fs : List Str) (es : List Entry) (n : ℕ) (a b q : ℝ) : Str :=
  Chars.join '\n' ((expected line fs (displayed es (r.trans.getD [])) (if o.npts then some n else none)
    (if o.chisq then some (a, b) else none) (if o.rsq then some q else none)).map mathLine)

theorem Reports.notFailed {o : Opts} {r : Report} {fs : List Str} {es : List Entry} {n : ℕ} {a b q : ℝ} (H : Reports o r fs es n a b q) :
    fitFailed r = false := not_failed r (by
  obtain ⟨e, he, hne⟩ := H.fitted
  exact ⟨(e.name, e.v), by rw [H.holds.1]; exact List.mem_map.mpr ⟨e, he, rfl⟩, hne⟩)

theorem Reports.core {n : ℕ} {a b q : ℝ} (H : Reports o r fs es n a b q) (cv : Str → Str) (line : Entry → Str)
    (hcv : ∀ L : List Str, L ≠ [] → (∀ l ∈ L, '\n' ∉ l) → converted sf o L = L.map cv)
    (hpl : ∀ e ∈ displayed es (r.trans.getD []), ∀ x, x = e.name.toList ++ " = ".toList ++ (fmtE e.n e.v ++ " \\pm ".toList ++ fmtE 0 e.u) →
      infty (cv x) = line e ∧ '\n' ∉ x ∧ '$' ∉ cv x ∧ '\n' ∉ cv x ∧ cv x ≠ [])
    (cF : ∀ l ∈ fs, cv l = l) (cn : cv [] = []) (cN : cv (pointsLine n) = pointsLine n) (cC : cv (chiLine a b) = chiLine a b) :
    annotation table sf o r = .ok (fullText line o r fs es n a b q) :=
  text_core table sf o r fs (displayed es (r.trans.getD [])) cv line H.bare H.norel H.notFailed hcv
    (texPopt_displayed r es H.holds H.trans H.printed) hpl H.func H.someFunc H.plainFunc cF n H.points a b H.chi.1 H.chi.2.1 H.chi.2.2 q H.det cn cN cC

theorem conv_nil : convLine [] = [] := by
  apply convLine_plain
  exact ⟨⟨NoPair.of_not_mem (by simp), NoPair.of_not_mem (by simp), NoPair.of_not_mem (by simp), NoPair.of_not_mem (by simp)⟩,
    NoPm.of_not_mem (by simp), by simp, rfl⟩

/-- C212: the annotation in the default notation, in full.  For every formula of plain lines, every list of plainly named parameters, every
translation of names and every choice of the statistics: the lines of the formula, one line per parameter -- untranslated names first,
then the translated ones; value and uncertainty in power-of-ten notation, infinite ones as `\infty` -- then one blank line and the number of
points and chi-squared if asked for, and R-squared last.  Every line is in math mode of its own. -/
theorem C212_text {n : ℕ} {a b q : ℝ} (H : Reports o r fs es n a b q) (hp : o.pow = true) (hst : o.strip = false) (hs : o.simp = false) :
    annotation table sf o r = .ok (fullText paramLine o r fs es n a b q) := by
  refine H.core table sf o r fs es convLine paramLine ?_ ?_ (fun l hl => convLine_plain l (H.plainFunc l hl).1) conv_nil
    (convLine_plain _ (points_plain n).1) (convLine_plain _ (chi_plain a b H.chi.1 H.chi.2.1).1)
  · intro L hne hL
    unfold converted
    rw [hp, hst, hs]
    simp only [Bool.not_false, Bool.and_self, if_true, Bool.or_self]
    exact convertPow_lines _ hne hL
  · rintro e he x rfl
    obtain ⟨k1, k2, k3, k4⟩ := paramLine_conv e (H.plainNames e he)
    exact ⟨k1, k2, k3, convLine_newline _ k2, k4⟩

/-- C212: without uncertainties: the same, each parameter line ending after the value. -/
theorem C212_stripped {n : ℕ} {a b q : ℝ} (H : Reports o r fs es n a b q) (hp : o.pow = true) (hst : o.strip = true) (hs : o.simp = false) :
    annotation table sf o r = .ok (fullText strippedLine o r fs es n a b q) := by
  refine H.core table sf o r fs es (fun l => (splitPm (convLine l)).headD []) strippedLine ?_ ?_ ?_ ?_ ?_ ?_
  · intro L hne hL
    unfold converted
    rw [hp, hst, hs]
    simp only [Bool.not_false, Bool.and_self, if_true, Bool.or_false, Bool.false_eq_true, if_false]
    rw [convertPow_lines _ hne hL]
    unfold stripUnc
    rw [List.map_map]
    rfl
  · rintro e he x rfl
    have hsh := H.plainNames e he
    obtain ⟨k1, k2, k3, k4⟩ := paramLine_conv e hsh
    have hc := C175_line e.name.toList hsh.1 e.v e.u e.n 0
    have e1 : e.name.toList ++ " = ".toList ++ (fmtE e.n e.v ++ " \\pm ".toList ++ fmtE 0 e.u) =
        e.name.toList ++ " = ".toList ++ fmtE e.n e.v ++ " \\pm ".toList ++ fmtE 0 e.u := by simp only [List.append_assoc]
    have hcl : convLine (e.name.toList ++ " = ".toList ++ (fmtE e.n e.v ++ " \\pm ".toList ++ fmtE 0 e.u)) =
        e.name.toList ++ " = ".toList ++ shownPow (fmtE e.n e.v) " ".toList ++ "\\pm ".toList ++ shownPow (fmtE 0 e.u) [] := by
      rw [e1] at k2 ⊢; exact convLine_eq k2 hc
    have hst : (splitPm (convLine (e.name.toList ++ " = ".toList ++ (fmtE e.n e.v ++ " \\pm ".toList ++ fmtE 0 e.u)))).headD [] =
        e.name.toList ++ " = ".toList ++ shownPow (fmtE e.n e.v) " ".toList := by
      rw [hcl]
      have e2 : e.name.toList ++ " = ".toList ++ shownPow (fmtE e.n e.v) " ".toList ++ "\\pm ".toList ++ shownPow (fmtE 0 e.u) [] =
          (e.name.toList ++ " = ".toList ++ shownPow (fmtE e.n e.v) " ".toList) ++ '\\' :: 'p' :: 'm' :: (' ' :: shownPow (fmtE 0 e.u) []) := by
        rw [show "\\pm ".toList = ['\\', 'p', 'm', ' '] from by decide]; simp
      rw [e2]
      obtain ⟨v1, -, -, v4, v5⟩ := midPow_fmt e.n e.v
      have hbase : NoPm (e.name.toList ++ " = ".toList) := hsh.1.2.1.append (NoPm.of_not_mem (by decide)) (by decide) (by decide)
      have hb2 : NoPm (e.name.toList ++ " = ".toList ++ midPow (fmtE e.n e.v)) := hbase.append v1 v4 v5
      have hne : shownPow (fmtE e.n e.v) " ".toList = midPow (fmtE e.n e.v) ++ " ".toList ++ (if 'e' ∈ fmtE e.n e.v then ['}'] else []) := by
        unfold shownPow midPow; split_ifs <;> simp
      apply strip_pm'
      · rw [hne, ← List.append_assoc, ← List.append_assoc]
        refine (hb2.append (NoPm.of_not_mem (by decide)) (by decide) (by decide)).append ?_ ?_ ?_
        · split_ifs <;> exact NoPm.of_not_mem (by decide)
        · split_ifs <;> decide
        · split_ifs <;> decide
      · rw [hne]
        split_ifs
        · exact ⟨'}', by rw [← List.append_assoc, ← List.append_assoc, List.getLast?_append]; rfl, by decide, by decide⟩
        · exact ⟨' ', by rw [List.append_nil, ← List.append_assoc, List.getLast?_append]; rfl, by decide, by decide⟩
    simp only [hst]
    have hsub : ∀ c, c ∉ convLine (e.name.toList ++ " = ".toList ++ (fmtE e.n e.v ++ " \\pm ".toList ++ fmtE 0 e.u)) →
        c ∉ e.name.toList ++ " = ".toList ++ shownPow (fmtE e.n e.v) " ".toList := by
      intro c hc hh
      apply hc
      rw [hcl]
      exact List.mem_append_left _ (List.mem_append_left _ hh)
    refine ⟨?_, k2, hsub _ k3, hsub _ (convLine_newline _ k2), by simp [hsh.2.1]⟩
    rw [infty_eqline _ _ hsh.2.2.2, infty_shown _ _ _ (Or.inl (by decide))]
    rfl
  · intro l hl
    have := (H.plainFunc l hl).1
    simp only [convLine_plain l this]
    exact strip_none l this.2.1
  · simp only [conv_nil]; rfl
  · have := (points_plain n).1
    simp only [convLine_plain _ this]; exact strip_none _ this.2.1
  · have := (chi_plain a b H.chi.1 H.chi.2.1).1
    simp only [convLine_plain _ this]; exact strip_none _ this.2.1

/-- C212: in exponent notation: value and uncertainty as printed. -/
theorem C212_exponent {n : ℕ} {a b q : ℝ} (H : Reports o r fs es n a b q) (hp : o.pow = false) (hst : o.strip = false) (hs : o.simp = false) :
    annotation table sf o r = .ok (fullText sciLine o r fs es n a b q) := by
  refine H.core table sf o r fs es id sciLine ?_ ?_ (fun _ _ => rfl) rfl rfl rfl
  · intro L _ _
    unfold converted
    rw [hp, hst, hs]
    simp
  · rintro e he x rfl
    have hsh := H.plainNames e he
    refine ⟨?_, raw_free e _ hsh.1.2.2.1 (by decide) (by decide) (by decide) (by decide),
      raw_free e _ hsh.2.2.1 (by decide) (by decide) (by decide) (by decide),
      raw_free e _ hsh.1.2.2.1 (by decide) (by decide) (by decide) (by decide), by simp [hsh.2.1]⟩
    simp only [id]
    rw [infty_eqline _ _ hsh.2.2.2, infty_pmline, infty_fmtE, infty_fmtE]
    unfold sciLine
    simp only [List.append_assoc]

/-- C212: in exponent notation without uncertainties. -/
theorem C212_exponent_stripped {n : ℕ} {a b q : ℝ} (H : Reports o r fs es n a b q) (hp : o.pow = false) (hst : o.strip = true)
    (hs : o.simp = false) : annotation table sf o r = .ok (fullText sciStrippedLine o r fs es n a b q) := by
  refine H.core table sf o r fs es (fun l => (splitPm l).headD []) sciStrippedLine ?_ ?_
    (fun l hl => strip_none l (H.plainFunc l hl).1.2.1) rfl (strip_none _ (points_plain n).1.2.1)
    (strip_none _ (chi_plain a b H.chi.1 H.chi.2.1).1.2.1)
  · intro L _ _
    unfold converted
    rw [hp, hst, hs]
    simp [stripUnc]
  · rintro e he x rfl
    have hsh := H.plainNames e he
    have hx : (splitPm (e.name.toList ++ " = ".toList ++ (fmtE e.n e.v ++ " \\pm ".toList ++ fmtE 0 e.u))).headD [] =
        e.name.toList ++ " = ".toList ++ (fmtE e.n e.v ++ [' ']) := by
      have e2 : e.name.toList ++ " = ".toList ++ (fmtE e.n e.v ++ " \\pm ".toList ++ fmtE 0 e.u) =
          (e.name.toList ++ " = ".toList ++ fmtE e.n e.v) ++ ' ' :: '\\' :: 'p' :: 'm' :: (' ' :: fmtE 0 e.u) := by
        rw [show " \\pm ".toList = [' ', '\\', 'p', 'm', ' '] from by decide]; simp
      rw [e2, strip_pm _ _ (raw_noPm e hsh), List.append_assoc]
    have hfree : ∀ c, c ∉ e.name.toList → c.isDigit = false → c ∉ ['n', 'a', 'i', 'f', '-', '.', 'e', '+'] → c ∉ " = ".toList → c ≠ ' ' →
        c ∉ e.name.toList ++ " = ".toList ++ (fmtE e.n e.v ++ [' ']) := by
      intro c h1 h2 h3 h4 h5
      simp only [List.mem_append, not_or, List.mem_singleton]
      exact ⟨⟨h1, h4⟩, fmtE_not_mem _ _ _ h2 h3, h5⟩
    simp only [hx]
    refine ⟨?_, raw_free e _ hsh.1.2.2.1 (by decide) (by decide) (by decide) (by decide),
      hfree _ hsh.2.2.1 (by decide) (by decide) (by decide) (by decide), hfree _ hsh.1.2.2.1 (by decide) (by decide) (by decide) (by decide),
      by simp [hsh.2.1]⟩
    rw [infty_eqline _ _ hsh.2.2.2, infty_append _ _ (by simp) (by simp), infty_fmtE, infty_id [' '] (NoInf.of_not_mem (by decide))]
    unfold sciStrippedLine
    rw [show " ".toList = [' '] from by decide]
    simp only [List.append_assoc]

/-- C212: simplified for a paper, whatever the notation asked for: each parameter is `name = number` with the shortest text of the number,
trailing zeros and points removed and no uncertainty; formula and statistics are unchanged.  (`sf`: `str(float(text))`; nothing with a brace
and no right side of a formula line is a number.) -/
theorem C212_paper {n : ℕ} {a b q : ℝ} (H : Reports o r fs es n a b q) (hs : o.simp = true) (txt : Entry → Str)
    (hbrace : ∀ t, '{' ∈ t → sf t = none) (hform : ∀ l ∈ fs, ∀ t, (Chars.split '=' (l.filter (· ≠ ' ')))[1]? = some t → sf t = none)
    (hnum : ∀ e ∈ displayed es (r.trans.getD []), sf (fmtE e.n e.v) = some (txt e) ∧ ∀ c ∈ txt e, c.isDigit = true ∨ c ∈ ['.', '-', '+', 'e'])
    (hnames : ∀ e ∈ displayed es (r.trans.getD []), ' ' ∉ e.name.toList ∧ '=' ∉ e.name.toList) :
    annotation table sf o r = .ok (fullText (paperLine txt) o r fs es n a b q) := by
  have keepForm : ∀ l : Str, '$' ∉ l → (∀ t, (Chars.split '=' (l.filter (· ≠ ' ')))[1]? = some t → sf t = none) → simplifyLine sf l = l := by
    intro l hd hl
    have h1 : stripDollar l = l := stripDollar_of l (fun h => hd (List.mem_of_mem_head? h)) (fun h => hd (List.mem_of_getLast? h))
    unfold simplifyLine
    simp only [h1]
    rcases hsp : Chars.split '=' (l.filter (· ≠ ' ')) with _ | ⟨t0, _ | ⟨t1, ts⟩⟩
    · rfl
    · rfl
    · simp only [hl t1 (by rw [hsp]; rfl)]
  have second : ∀ (k t : Str), '=' ∉ k → ∀ x, (Chars.split '=' (k ++ '=' :: '{' :: t))[1]? = some x → '{' ∈ x := by
    intro k t hk x hx
    rw [Chars.split_append _ _ _ hk] at hx
    simp only [List.getElem?_cons_succ] at hx
    unfold Chars.split at hx
    rw [if_neg (by decide)] at hx
    cases hsp : Chars.split '=' t with
    | nil => rw [hsp] at hx; simp at hx; rw [← hx]; simp
    | cons y ys => rw [hsp] at hx; simp at hx; rw [← hx]; simp
  refine H.core table sf o r fs es (fun l => simplifyLine sf ((splitPm l).headD [])) (paperLine txt) ?_ ?_ ?_ ?_ ?_ ?_
  · intro L _ _
    unfold converted
    rw [hs]
    simp [stripUnc, Function.comp_def]
  · rintro e he x rfl
    have hsh := H.plainNames e he
    obtain ⟨hn1, hn2⟩ := hnum e he
    obtain ⟨hsp, heq⟩ := hnames e he
    have hx : (splitPm (e.name.toList ++ " = ".toList ++ (fmtE e.n e.v ++ " \\pm ".toList ++ fmtE 0 e.u))).headD [] =
        e.name.toList ++ " = ".toList ++ (fmtE e.n e.v ++ [' ']) := by
      have e2 : e.name.toList ++ " = ".toList ++ (fmtE e.n e.v ++ " \\pm ".toList ++ fmtE 0 e.u) =
          (e.name.toList ++ " = ".toList ++ fmtE e.n e.v) ++ ' ' :: '\\' :: 'p' :: 'm' :: (' ' :: fmtE 0 e.u) := by
        rw [show " \\pm ".toList = [' ', '\\', 'p', 'm', ' '] from by decide]; simp
      rw [e2, strip_pm _ _ (raw_noPm e hsh), List.append_assoc]
    have hfmt : ∀ c, c ∈ [' ', '=', '$'] → c ∉ fmtE e.n e.v := by
      intro c hc
      refine fmtE_not_mem _ _ _ ?_ ?_
      · revert hc; revert c; decide
      · revert hc; revert c; decide
    have hsimp : simplifyLine sf (e.name.toList ++ " = ".toList ++ (fmtE e.n e.v ++ [' '])) = paperLine txt e := by
      have hsd : stripDollar (e.name.toList ++ " = ".toList ++ (fmtE e.n e.v ++ [' '])) = e.name.toList ++ " = ".toList ++ (fmtE e.n e.v ++ [' ']) := by
        have hd : '$' ∉ e.name.toList ++ " = ".toList ++ (fmtE e.n e.v ++ [' ']) := by
          simp only [List.mem_append, not_or]
          exact ⟨⟨hsh.2.2.1, by decide⟩, hfmt _ (by decide), by decide⟩
        exact stripDollar_of _ (fun h => hd (List.mem_of_mem_head? h)) (fun h => hd (List.mem_of_getLast? h))
      have hfil : (e.name.toList ++ " = ".toList ++ (fmtE e.n e.v ++ [' '])).filter (· ≠ ' ') = e.name.toList ++ '=' :: fmtE e.n e.v := by
        rw [show " = ".toList = [' ', '=', ' '] from by decide, List.filter_append, List.filter_append, List.filter_append,
          filter_of_not_mem _ _ hsp, filter_of_not_mem _ _ (hfmt _ (by decide))]
        simp
      unfold simplifyLine
      simp only [hsd, hfil, Chars.split_append _ _ _ heq, Chars.split_of_not_mem _ _ (hfmt '=' (by decide)), hn1]
      rfl
    have htx : ∀ c, c ∈ rstrip '.' (rstrip '0' (txt e)) → c ∈ txt e := by
      have hr : ∀ (d : Char) (s : Str) (c : Char), c ∈ rstrip d s → c ∈ s := by
        intro d s c hc
        unfold rstrip at hc
        rw [List.mem_reverse] at hc
        exact List.mem_reverse.mp ((List.dropWhile_suffix _).subset hc)
      exact fun c hc => hr _ _ _ (hr _ _ _ hc)
    have hfree : ∀ c, c ∉ e.name.toList → c.isDigit = false → c ∉ ['.', '-', '+', 'e'] → c ∉ " = ".toList → c ∉ paperLine txt e := by
      intro c h1 h2 h3 h4
      unfold paperLine
      simp only [List.mem_append, not_or]
      refine ⟨⟨h1, h4⟩, fun h => ?_⟩
      rcases hn2 c (htx c h) with h | h
      · rw [h2] at h; cases h
      · exact h3 h
    simp only [hx, hsimp]
    refine ⟨?_, raw_free e _ hsh.1.2.2.1 (by decide) (by decide) (by decide) (by decide), hfree _ hsh.2.2.1 (by decide) (by decide) (by decide),
      hfree _ hsh.1.2.2.1 (by decide) (by decide) (by decide), by unfold paperLine; simp [hsh.2.1]⟩
    unfold paperLine
    rw [infty_eqline _ _ hsh.2.2.2, infty_id]
    apply NoInf.of_not_mem
    left
    intro h
    rcases hn2 _ (htx _ h) with h | h <;> exact absurd h (by decide)
  · intro l hl
    obtain ⟨q1, q2, q3, q4⟩ := H.plainFunc l hl
    simp only [strip_none l q1.2.1]
    exact keepForm l q3 (hform l hl)
  · show simplifyLine sf [] = []
    exact keepForm [] (by simp) (by intro t ht; simp [Chars.split] at ht)
  · obtain ⟨q1, q2, q3, q4⟩ := points_plain n
    simp only [strip_none _ q1.2.1]
    refine keepForm _ q3 ?_
    intro t ht
    have e : (pointsLine n).filter (· ≠ ' ') = "N_\\mathrm{pts}".toList ++ '=' :: ('{' :: (Nat.toDigits 10 n ++ ['}'])) := by
      unfold pointsLine
      rw [List.filter_append, List.filter_append, filter_of_not_mem ' ' (Nat.toDigits 10 n) (not_mem_of_digit (toDigits_digit n) (by decide))]
      rfl
    rw [e] at ht
    exact hbrace _ (second _ _ (by decide) _ ht)
  · obtain ⟨q1, q2, q3, q4⟩ := chi_plain a b H.chi.1 H.chi.2.1
    simp only [strip_none _ q1.2.1]
    refine keepForm _ q3 ?_
    intro t ht
    obtain ⟨Z, e⟩ : ∃ Z, (chiLine a b).filter (· ≠ ' ') = "\\chi^2_\\nu".toList ++ '=' :: ('{' :: Z) := by
      unfold chiLine
      rw [List.filter_append, List.filter_append, List.filter_append, List.filter_append]
      exact ⟨_, rfl⟩
    rw [e] at ht
    exact hbrace _ (second _ _ (by decide) _ ht)

/-- C212: the table of relative errors has one row per displayed parameter, in the displayed order: uncertainty over value, unsigned. -/
theorem C212_relative_error (h : r.Holds es) (hg : GoodTranslation (es.map Entry.name) (r.trans.getD [])) :
    relError table r = .ok (relHeader ++ table ((displayed es (r.trans.getD [])).map
      (fun e => (e.name.toList ++ " \\;\\;\\; ".toList, Fl.abs (e.u / e.v))))) := by
  obtain ⟨h1, h2, h3⟩ := h
  have hm : r.psigma.mapM (m := Except PyErr) (fun kv => do
      let p ← Dict.val r.popt kv.1
      .ok (kv.1, kv.2 / p)) = .ok (es.map (fun e => (e.name, e.u / e.v))) := by
    rw [h1, h2, List.mapM_map]
    apply mapM_ok_of
    intro e he
    simp only [Function.comp]
    rw [val_of es Entry.v h3 e he]
    rfl
  unfold relError
  rw [hm]
  simp only [bind, Except.bind]
  cases ht : r.trans with
  | none =>
    simp only [renamed, List.map_map, Option.getD_none]
    congr 3
    unfold displayed
    simp
  | some tr =>
    rw [ht] at hg
    simp only [renamed, Option.getD_some] at hg ⊢
    rw [translate_entries es (fun e => e.u / e.v) (fun _ _ => rfl) tr hg]
    simp only [List.map_map]
    rfl

end

/-! ## Non-vacuity -/

/-- the straight line of `toyReport` with its slope renamed -/
noncomputable def toyRenamed : Report := { toyReport with trans := some [("m", "\\alpha")] }

theorem toy_entries : ∃ n1 n2, valUncert (.fin 2) (.fin (1 / 10)) = .ok (fmtE n1 (.fin 2) ++ " \\pm ".toList ++ fmtE 0 (.fin (1 / 10))) ∧
    valUncert (.fin 3) .pinf = .ok (fmtE n2 (.fin 3) ++ " \\pm ".toList ++ fmtE 0 .pinf) := by
  have h1 : ∃ n, valUncert (.fin 2) (.fin (1 / 10)) = .ok (fmtE n (.fin 2) ++ " \\pm ".toList ++ fmtE 0 (.fin (1 / 10))) := by
    rcases valUncert_ok (.fin 2) (.fin (1 / 10)) with h | ⟨-, h, -⟩
    · exact h
    · exact absurd (by simp [Fl.isFinite]) h
  have h2 : ∃ n, valUncert (.fin 3) .pinf = .ok (fmtE n (.fin 3) ++ " \\pm ".toList ++ fmtE 0 .pinf) := by
    rcases valUncert_ok (.fin 3) .pinf with h | ⟨h, -, -⟩
    · exact h
    · exact absurd h (by simp [Fl.isFinite])
  obtain ⟨n1, h1⟩ := h1
  obtain ⟨n2, h2⟩ := h2
  exact ⟨n1, n2, h1, h2⟩

/-- both reports, with all statistics, in any notation; the renamed slope comes last -/
example (pw st sm : Bool) : ∃ es : List Entry, es.length = 2 ∧
    Reports { npts := true, rsq := true, pow := pw, strip := st, simp := sm } toyReport ["f(x) = m x + b".toList] es 12 1 2 (1 / 2) ∧
    Reports { npts := true, rsq := true, pow := pw, strip := st, simp := sm } toyRenamed ["f(x) = m x + b".toList] es 12 1 2 (1 / 2) ∧
    (displayed es [("m", "\\alpha")]).map Entry.name = ["b", "\\alpha"] := by
  obtain ⟨n1, n2, h1, h2⟩ := toy_entries
  have hpr : ∀ e ∈ ([⟨"m", .fin 2, .fin (1 / 10), n1⟩, ⟨"b", .fin 3, .pinf, n2⟩] : List Entry),
      valUncert e.v e.u = .ok (fmtE e.n e.v ++ " \\pm ".toList ++ fmtE 0 e.u) := by
    intro e he
    rcases List.mem_cons.mp he with rfl | he
    · exact h1
    · rcases List.mem_cons.mp he with rfl | he
      · exact h2
      · simp at he
  have hd : displayed [⟨"m", .fin 2, .fin (1 / 10), n1⟩, ⟨"b", .fin 3, .pinf, n2⟩] [("m", "\\alpha")] =
      [⟨"b", .fin 3, .pinf, n2⟩, ⟨"\\alpha", .fin 2, .fin (1 / 10), n1⟩] := by
    simp [displayed]
  have hd0 : displayed [⟨"m", .fin 2, .fin (1 / 10), n1⟩, ⟨"b", .fin 3, .pinf, n2⟩] [] =
      [⟨"m", .fin 2, .fin (1 / 10), n1⟩, ⟨"b", .fin 3, .pinf, n2⟩] := by
    simp [displayed]
  have hS : ∀ l ∈ ["m".toList, "b".toList, "\\alpha".toList], Shown1 l := by unfold Shown1 PlainName Calm NoPair NoPm NoInf; decide
  have hF : ∀ l ∈ ["f(x) = m x + b".toList], Shown1 l := by unfold Shown1 PlainName Calm NoPair NoPm NoInf; decide
  refine ⟨[⟨"m", .fin 2, .fin (1 / 10), n1⟩, ⟨"b", .fin 3, .pinf, n2⟩], rfl, ?_, ?_, by rw [hd]; rfl⟩
  · refine ⟨⟨rfl, rfl, rfl⟩, rfl, ⟨rfl, rfl, by simp⟩, ⟨by simp [toyReport], by simp [toyReport], by simp [toyReport], by simp [toyReport]⟩,
      ⟨_, List.mem_cons_self, by simp⟩, hpr, rfl, by simp, hF, ?_, fun _ => rfl, ⟨by norm_num, by norm_num, fun _ => rfl⟩, fun _ => rfl⟩
    show ∀ e ∈ displayed [⟨"m", .fin 2, .fin (1 / 10), n1⟩, ⟨"b", .fin 3, .pinf, n2⟩] [], Shown1 e.name.toList
    rw [hd0]
    intro e he; simp at he; rcases he with rfl | rfl <;> exact hS _ (by simp)
  · refine ⟨⟨rfl, rfl, rfl⟩, rfl, ⟨rfl, rfl, by simp⟩, ⟨by simp [toyRenamed], by simp [toyRenamed], by simp [toyRenamed], by simp [toyRenamed]⟩,
      ⟨_, List.mem_cons_self, by simp⟩, hpr, rfl, by simp, hF, ?_, fun _ => rfl, ⟨by norm_num, by norm_num, fun _ => rfl⟩, fun _ => rfl⟩
    show ∀ e ∈ displayed [⟨"m", .fin 2, .fin (1 / 10), n1⟩, ⟨"b", .fin 3, .pinf, n2⟩] [("m", "\\alpha")], Shown1 e.name.toList
    rw [hd]
    intro e he; simp at he; rcases he with rfl | rfl <;> exact hS _ (by simp)

/-- a `str(float(text))` that meets the hypotheses of `C212_paper`: texts without letters but `e` are numbers, all printed as `2.50` -/
def toyFloat (t : Str) : Option Str := if t.all (fun c => c.isDigit || c ∈ ['.', '-', '+', 'e']) ∧ t ≠ [] then some "2.50".toList else none

example : (∀ t, '{' ∈ t → toyFloat t = none) ∧
    (∀ t, (Chars.split '=' ("f(x) = m x + b".toList.filter (· ≠ ' ')))[1]? = some t → toyFloat t = none) ∧
    toyFloat (fmtE 3 (.fin 0)) = some "2.50".toList ∧ rstrip '.' (rstrip '0' "2.50".toList) = "2.5".toList := by
  refine ⟨?_, ?_, ?_, by decide⟩
  · intro t ht
    unfold toyFloat
    rw [if_neg]
    rintro ⟨h, -⟩
    have := List.all_eq_true.mp h _ ht
    exact absurd this (by decide)
  · intro t ht
    have : (Chars.split '=' ("f(x) = m x + b".toList.filter (· ≠ ' ')))[1]? = some "mx+b".toList := by decide
    rw [this] at ht
    cases ht
    decide
  · unfold toyFloat
    rw [if_pos]
    constructor
    · rw [List.all_eq_true]
      intro c hc
      have hc' : c ∈ sciText 3 (sci 3 0) := hc
      unfold sciText at hc'
      obtain ⟨t, ht, _, hd, _⟩ := expText_eq (sci 3 0).e
      rw [ht] at hc'
      rcases List.mem_append.mp hc' with h | h
      · rcases mant_chars 3 _ _ h with h | h | h <;> simp [h]
      · rcases List.mem_cons.mp h with h | h
        · simp [h]
        · rcases List.mem_cons.mp h with h | h
          · split_ifs at h <;> simp [h]
          · simp [hd _ h]
    · show sciText 3 _ ≠ []
      unfold sciText
      simp

end Tex
end SW
