import Verif.TexFull
import Verif.Props.TexNum
import Verif.Props.TexInfo

/-! # Properties of the whole annotation of a fit: C212, C213 -/

namespace SW
namespace Tex

/-! ## Specification -/

/-- the lines of a text, as matplotlib draws them -/
def textLines (s : Str) : List Str := Chars.split '\n' s

/-- every line has an even number of dollars: math mode never runs over the end of a line -/
def LinesBalanced (s : Str) : Prop := ∀ l ∈ textLines s, dollars l % 2 = 0

/-- a line between dollars; an empty line stays empty -/
def mathLine (l : Str) : Str := if l = [] then [] else "$ ".toList ++ l ++ " $".toList

/-- a number in the annotation: infinities as `\infty`, numbers in power-of-ten notation; `tail` ends its piece of the line -/
def shownNum (t tail : Str) : Str :=
  if t = "inf".toList then "\\infty".toList ++ tail else if t = "-inf".toList then "-\\infty".toList ++ tail else shownPow t tail

/-- the text does not contain `inf` -/
def NoInf (s : Str) : Prop := ¬ ['i', 'n', 'f'] <:+: s

/-- text shown as it is: a plain name (C175), not empty, without dollars and without `inf` -/
def Shown1 (k : Str) : Prop := PlainName k ∧ k ≠ [] ∧ '$' ∉ k ∧ NoInf k

/-- a fitted parameter: name, value, uncertainty, number of decimals of the printed value -/
structure Entry where
  name : String
  v : Fl
  u : Fl
  n : ℕ

/-- the line of a parameter -/
noncomputable def paramLine (e : Entry) : Str :=
  e.name.toList ++ " = ".toList ++ shownNum (fmtE e.n e.v) " ".toList ++ "\\pm ".toList ++ shownNum (fmtE 0 e.u) []

/-- the lines of the statistics -/
def pointsLine (n : ℕ) : Str := "N_\\mathrm{pts} = {".toList ++ Nat.toDigits 10 n ++ "}".toList

/-- two values of reduced chi-squared, linear and robust -/
noncomputable def chiLine (a b : ℝ) : Str :=
  "\\chi^2_\\nu = {".toList ++ fmtF 2 (.fin a) ++ "} \\; \\; \\; \\; \\; \\; \\; \\; \\; \\; \\; \\; \\; \\; \\; \\; \\chi^2_{\\nu;R} = {".toList ++
    fmtF 2 (.fin b) ++ "}".toList

/-- coefficient of determination -/
noncomputable def detLine (q : ℝ) : Str := "R^2 = ".toList ++ fmtF 2 (.fin q)

/-- the lines a user expects: formula, parameters, then -- after one blank line -- the requested statistics, R-squared last -/
noncomputable def expected (line : Entry → Str) (fs : List Str) (es : List Entry) (n : Option ℕ) (ab : Option (ℝ × ℝ)) (q : Option ℝ) : List Str :=
  fs ++ es.map line ++
  (match n, ab with
   | none, none => []
   | some n, none => [[], pointsLine n]
   | none, some ab => [[], chiLine ab.1 ab.2]
   | some n, some ab => [[], pointsLine n, chiLine ab.1 ab.2]) ++
  (match q with
   | none => []
   | some q => [detLine q])

/-! ## Lines and dollars -/

/-- reads a text remembering the parity of dollars in the current line -/
def scan : Bool → Str → Bool
  | p, [] => !p
  | p, '\n' :: s => !p && scan false s
  | p, '$' :: s => scan (!p) s
  | p, _ :: s => scan p s

theorem scan_nl (p : Bool) (s : Str) : scan p ('\n' :: s) = (!p && scan false s) := rfl
theorem scan_dollar (p : Bool) (s : Str) : scan p ('$' :: s) = scan (!p) s := rfl
theorem scan_other (p : Bool) (c : Char) (s : Str) (h1 : c ≠ '\n') (h2 : c ≠ '$') : scan p (c :: s) = scan p s := by
  rw [scan]
  · exact h1
  · exact h2

theorem scan_free (p : Bool) (a s : Str) (h1 : '\n' ∉ a) (h2 : '$' ∉ a) : scan p (a ++ s) = scan p s := by
  induction a with
  | nil => rfl
  | cons c a ih =>
    simp only [List.mem_cons, not_or] at h1 h2
    rw [List.cons_append, scan_other p c _ (fun h => h1.1 h.symm) (fun h => h2.1 h.symm), ih h1.2 h2.2]

theorem scan_iff (s : Str) : ∀ p : Bool, scan p s = true ↔
    ∃ l ls, Chars.split '\n' s = l :: ls ∧ (dollars l + (if p then 1 else 0)) % 2 = 0 ∧ ∀ x ∈ ls, dollars x % 2 = 0 := by
  induction s with
  | nil => intro p; cases p <;> simp [scan, Chars.split, dollars]
  | cons c s ih =>
    intro p
    by_cases hc : c = '\n'
    · subst hc
      rw [scan_nl]
      have e : Chars.split '\n' ('\n' :: s) = [] :: Chars.split '\n' s := by simp [Chars.split]
      rw [e]
      constructor
      · intro h
        rw [Bool.and_eq_true] at h
        obtain ⟨l, ls, h1, h2, h3⟩ := (ih false).mp h.2
        refine ⟨[], _, rfl, ?_, ?_⟩
        · have : p = false := by simpa using h.1
          subst this; rfl
        · rw [h1]; intro x hx
          rcases List.mem_cons.mp hx with rfl | hx
          · simpa using h2
          · exact h3 x hx
      · rintro ⟨l, ls, h1, h2, h3⟩
        obtain ⟨rfl, rfl⟩ : l = [] ∧ ls = Chars.split '\n' s := by
          injection h1 with a b; exact ⟨a.symm, b.symm⟩
        have hp : p = false := by
          cases p with
          | false => rfl
          | true => exact absurd h2 (by decide)
        subst hp
        rw [Bool.and_eq_true]
        refine ⟨rfl, (ih false).mpr ?_⟩
        obtain ⟨l, ls, hl⟩ : ∃ l ls, Chars.split '\n' s = l :: ls := by
          cases h : Chars.split '\n' s with
          | nil => exact absurd h (Chars.split_ne_nil _ _)
          | cons l ls => exact ⟨l, ls, rfl⟩
        exact ⟨l, ls, hl, by simpa using h3 l (by rw [hl]; simp), fun x hx => h3 x (by rw [hl]; simp [hx])⟩
    · obtain ⟨l0, ls0, hl0⟩ : ∃ l ls, Chars.split '\n' s = l :: ls := by
        cases h : Chars.split '\n' s with
        | nil => exact absurd h (Chars.split_ne_nil _ _)
        | cons l ls => exact ⟨l, ls, rfl⟩
      have e : Chars.split '\n' (c :: s) = (c :: l0) :: ls0 := by
        rw [Chars.split, hl0]; simp [hc]
      rw [e]
      have hs : scan p (c :: s) = scan (if c = '$' then !p else p) s := by
        by_cases hd : c = '$'
        · subst hd; rfl
        · rw [if_neg hd, scan_other p c s hc hd]
      rw [hs, ih, hl0]
      have key : (dollars l0 + (if (if c = '$' then !p else p) = true then 1 else 0)) % 2 = 0 ↔
          (dollars (c :: l0) + (if p = true then 1 else 0)) % 2 = 0 := by
        by_cases hd : c = '$'
        · subst hd
          have : dollars ('$' :: l0) = dollars l0 + 1 := by unfold dollars; rw [List.count_cons_self]
          rw [this, if_pos rfl]
          cases p <;> simp <;> omega
        · have : dollars (c :: l0) = dollars l0 := by unfold dollars; rw [List.count_cons_of_ne]; exact hd
          rw [this, if_neg hd]
      constructor
      · rintro ⟨l, ls, h1, h2, h3⟩
        injection h1 with a b
        subst a; subst b
        exact ⟨_, _, rfl, key.mp h2, h3⟩
      · rintro ⟨l, ls, h1, h2, h3⟩
        injection h1 with a b
        subst a; subst b
        exact ⟨_, _, rfl, key.mpr h2, h3⟩

theorem balanced_iff (s : Str) : LinesBalanced s ↔ scan false s = true := by
  rw [scan_iff]
  unfold LinesBalanced textLines
  constructor
  · intro h
    cases hs : Chars.split '\n' s with
    | nil => exact absurd hs (Chars.split_ne_nil _ _)
    | cons l ls => exact ⟨l, ls, rfl, by simpa using h l (by rw [hs]; simp), fun x hx => h x (by rw [hs]; simp [hx])⟩
  · rintro ⟨l, ls, hs, h2, h3⟩ x hx
    rw [hs] at hx
    rcases List.mem_cons.mp hx with rfl | hx
    · simpa using h2
    · exact h3 x hx

theorem replaceL_cons (p : Char) (ps rep : Str) (c : Char) (cs : Str) : replaceL p ps rep (c :: cs) =
    if (p :: ps).isPrefixOf (c :: cs) then rep ++ replaceL p ps rep (cs.drop ps.length) else c :: replaceL p ps rep cs := by
  rw [replaceL]

theorem scan_inf (s : Str) : ∀ p : Bool, scan p (replaceL 'i' ['n', 'f'] "\\infty".toList s) = scan p s := by
  induction hn : s.length using Nat.strong_induction_on generalizing s with
  | _ n ih =>
    intro p
    match s, hn with
    | [], _ => rw [replaceL]
    | c :: cs, hn =>
      rw [replaceL_cons]
      split_ifs with h
      · obtain ⟨t, ht⟩ := List.isPrefixOf_iff_prefix.mp h
        have hcs : c :: cs = 'i' :: 'n' :: 'f' :: t := by rw [← ht]; rfl
        injection hcs with h1 h2
        subst h1; subst h2
        have e : ('n' :: 'f' :: t).drop ['n', 'f'].length = t := rfl
        rw [e, scan_free p "\\infty".toList _ (by decide) (by decide), ih t.length (by rw [← hn]; simp; omega) t rfl]
        rw [scan_other _ _ _ (by decide) (by decide), scan_other _ _ _ (by decide) (by decide), scan_other _ _ _ (by decide) (by decide)]
      · have := ih cs.length (by rw [← hn]; simp) cs rfl
        by_cases hc : c = '\n'
        · subst hc; rw [scan_nl, scan_nl, this]
        · by_cases hd : c = '$'
          · subst hd; rw [scan_dollar, scan_dollar, this]
          · rw [scan_other _ _ _ hc hd, scan_other _ _ _ hc hd, this]

theorem scan_collapse (s : Str) : ∀ p : Bool, scan p (replaceL '\n' ['\n', '\n'] ['\n', '\n'] s) = scan p s := by
  induction hn : s.length using Nat.strong_induction_on generalizing s with
  | _ n ih =>
    intro p
    match s, hn with
    | [], _ => rw [replaceL]
    | c :: cs, hn =>
      rw [replaceL_cons]
      split_ifs with h
      · obtain ⟨t, ht⟩ := List.isPrefixOf_iff_prefix.mp h
        have hcs : c :: cs = '\n' :: '\n' :: '\n' :: t := by rw [← ht]; rfl
        injection hcs with h1 h2
        subst h1; subst h2
        have e : ('\n' :: '\n' :: t).drop ['\n', '\n'].length = t := rfl
        rw [e]
        show scan p ('\n' :: '\n' :: replaceL '\n' ['\n', '\n'] ['\n', '\n'] t) = _
        rw [scan_nl, scan_nl, ih t.length (by rw [← hn]; simp; omega) t rfl, scan_nl, scan_nl, scan_nl]
        simp
      · have := ih cs.length (by rw [← hn]; simp) cs rfl
        by_cases hc : c = '\n'
        · subst hc; rw [scan_nl, scan_nl, this]
        · by_cases hd : c = '$'
          · subst hd; rw [scan_dollar, scan_dollar, this]
          · rw [scan_other _ _ _ hc hd, scan_other _ _ _ hc hd, this]

theorem scan_append_nl (a b : Str) : ∀ p, scan p (a ++ '\n' :: b) = (scan p a && scan false b) := by
  induction a with
  | nil => intro p; simp [scan]
  | cons c a ih =>
    intro p
    by_cases hc : c = '\n'
    · subst hc; rw [List.cons_append, scan_nl, scan_nl, ih, Bool.and_assoc]
    · by_cases hd : c = '$'
      · subst hd; rw [List.cons_append, scan_dollar, scan_dollar, ih]
      · rw [List.cons_append, scan_other _ _ _ hc hd, scan_other _ _ _ hc hd, ih]

theorem scan_joinNL (l : List Str) : scan false (joinNL l) = l.all (scan false) := by
  induction l with
  | nil => rfl
  | cons a l ih =>
    cases l with
    | nil => simp [joinNL]
    | cons b l => rw [joinNL, scan_append_nl, ih]; rfl

/-- what `finishInfo` makes of one line -/
def wrapLine (x : Str) : Str := if x = [] then ['\n'] else "$ ".toList ++ x.filter (· ≠ '$') ++ " $".toList

theorem scan_finish (ls : List Str) : scan false (finishInfo ls) = ls.all (fun x => scan false (wrapLine x)) := by
  unfold finishInfo
  simp only []
  rw [scan_collapse, scan_inf, scan_joinNL, List.all_map]
  rfl

theorem dollar_filter (x : Str) : '$' ∉ x.filter (· ≠ '$') := by
  intro h; have := (List.mem_filter.mp h).2; simp at this

theorem scan_wrap_one (x : Str) (h : '\n' ∉ x) : scan false (wrapLine x) = true := by
  unfold wrapLine
  split_ifs with hx
  · rfl
  · have hnl : '\n' ∉ x.filter (· ≠ '$') := fun hm => h (List.mem_filter.mp hm).1
    rw [List.append_assoc, show "$ ".toList = '$' :: [' '] from by decide]
    rw [List.cons_append, scan_dollar, scan_free _ _ _ (by decide) (by decide), scan_free _ _ _ hnl (dollar_filter x)]
    decide

theorem finish_balanced (ls : List Str) (h : ∀ l ∈ ls, '\n' ∉ l) : LinesBalanced (finishInfo ls) := by
  rw [balanced_iff, scan_finish, List.all_eq_true]
  exact fun l hl => scan_wrap_one l (h l hl)

theorem joinPm_not_mem (c : Char) (hc : c ≠ '\\' ∧ c ≠ 'p' ∧ c ≠ 'm') (l : List Str) (h : ∀ x ∈ l, c ∉ x) : c ∉ joinPm l := by
  induction l with
  | nil => simp [joinPm]
  | cons a l ih =>
    cases l with
    | nil => simpa [joinPm] using h
    | cons b l =>
      simp only [joinPm, List.mem_append, List.mem_cons, not_or]
      exact ⟨h a (by simp), hc.1, hc.2.1, hc.2.2, ih (fun x hx => h x (by simp at hx ⊢; tauto))⟩

theorem splitPm_not_mem (c : Char) : ∀ (s : Str), c ∉ s → ∀ x ∈ splitPm s, c ∉ x := by
  intro s
  induction hn : s.length using Nat.strong_induction_on generalizing s with
  | _ n ih =>
    match s, hn with
    | [], _ => intro _ x hx; simp [splitPm] at hx; subst hx; simp
    | a :: cs, hn =>
      intro hc x hx
      simp only [List.mem_cons, not_or] at hc
      by_cases hp : ['\\', 'p', 'm'] <+: a :: cs
      · obtain ⟨t, ht⟩ := hp
        have e : a :: cs = '\\' :: 'p' :: 'm' :: t := by rw [← ht]; rfl
        injection e with e1 e2
        subst e1; subst e2
        rw [show splitPm ('\\' :: 'p' :: 'm' :: t) = [] :: splitPm t from by simp [splitPm]] at hx
        rcases List.mem_cons.mp hx with rfl | hx
        · simp
        · simp only [List.mem_cons, not_or] at hc
          exact ih t.length (by rw [← hn]; simp; omega) t rfl hc.2.2.2 x hx
      · rw [splitPm_cons a cs hp] at hx
        have := ih cs.length (by rw [← hn]; simp) cs rfl hc.2
        revert hx this
        cases splitPm cs with
        | nil => intro hx _; simp at hx; subst hx; simpa using hc.1
        | cons p ps =>
          intro hx this
          rcases List.mem_cons.mp hx with rfl | hx
          · simp only [List.mem_cons, not_or]; exact ⟨hc.1, this p (by simp)⟩
          · exact this x (by simp [hx])

theorem convertPow_newline (ls : List Str) : ∀ l ∈ convertPow ls, '\n' ∉ l := by
  intro l hl
  unfold convertPow at hl
  obtain ⟨x, hx, rfl⟩ := List.mem_map.mp hl
  have h1 := Chars.not_mem_split '\n' _ x hx
  refine joinPm_not_mem '\n' (by decide) _ ?_
  intro y hy
  obtain ⟨z, hz, rfl⟩ := List.mem_map.mp hy
  have := splitPm_not_mem '\n' x h1 z hz
  unfold closeBrace
  split_ifs
  · simp [this]
  · exact this

theorem stripUnc_newline (ls : List Str) (h : ∀ l ∈ ls, '\n' ∉ l) : ∀ l ∈ stripUnc ls, '\n' ∉ l := by
  intro l hl
  unfold stripUnc at hl
  obtain ⟨x, hx, rfl⟩ := List.mem_map.mp hl
  cases hs : splitPm x with
  | nil => simp
  | cons p ps => exact splitPm_not_mem '\n' x (h x hx) p (by rw [hs]; simp)

theorem fmtF_chars (d : ℕ) (x : Fl) : ∀ c ∈ fmtF d x, c.isDigit = true ∨ c ∈ ['n', 'a', 'i', 'f', '-', '.'] := by
  intro c hc
  cases x with
  | nan => exact Or.inr (by revert hc; revert c; simp [fmtF])
  | pinf => exact Or.inr (by revert hc; revert c; simp [fmtF])
  | ninf => exact Or.inr (by revert hc; revert c; simp [fmtF])
  | fin r =>
    unfold fmtF at hc
    rcases List.mem_append.mp hc with h | h
    · split_ifs at h
      · right; simp at h; subst h; decide
      · simp at h
    · rcases List.mem_append.mp h with h | h
      · exact Or.inl (toDigits_digit _ c h)
      · rcases List.mem_cons.mp h with rfl | h
        · right; decide
        · exact Or.inl (digs_digit _ _ c h)

theorem fmtF_not_mem (d : ℕ) (x : Fl) (c : Char) (h1 : c.isDigit = false) (h2 : c ∉ ['n', 'a', 'i', 'f', '-', '.']) : c ∉ fmtF d x := by
  intro h
  rcases fmtF_chars d x c h with h | h
  · rw [h1] at h; exact absurd h (by decide)
  · exact h2 h

theorem rsqLine_newline (q : Fl) : '\n' ∉ rsqLine q := by
  unfold rsqLine
  rw [List.mem_append, not_or]
  exact ⟨by decide, fmtF_not_mem 2 q '\n' (by decide) (by decide)⟩

/-! ## C212: what the annotation contains -/

/-- C212: when every parameter is missing -- also when there is none -- the annotation is the formula and the words "Fit Failed",
whatever the options and the statistics (which may be missing). -/
theorem C212_failed (table : List (Str × Fl) → Str) (sf : Str → Option Str) (o : Opts) (r : Report) (h : ∀ kv ∈ r.popt, kv.2 = Fl.nan)
    (hg : o.guess = false) (hx : o.extra = none) (ha : o.annotate = none) :
    annotation table sf o r = .ok ("$".toList ++ r.func ++ "$\n\nFit Failed".toList) := by
  have hf : fitFailed r = true := by unfold fitFailed; rw [List.all_eq_true]; intro kv hkv; simpa using h kv hkv
  unfold annotation
  rw [hf, hg, hx, ha]
  rfl

/-- the text of a printed parameter is `value \pm uncertainty` with one digit for the uncertainty; it cannot be printed exactly when the
value is not a number or infinite and the uncertainty is a number -/
theorem valUncert_ok (v u : Fl) : (∃ n, valUncert v u = .ok (fmtE n v ++ " \\pm ".toList ++ fmtE 0 u)) ∨
    (u.isFinite ∧ ¬ v.isFinite ∧ valUncert v u = .error .valueError) := by
  by_cases hu : u.isFinite
  · by_cases hv : v.isFinite
    · left
      cases u with
      | fin b => cases v with
        | fin a => exact ⟨_, by unfold valUncert; rw [if_pos hu, calc_fin, calc_fin, pm_eq]⟩
        | _ => exact absurd hv (by simp [Fl.isFinite])
      | _ => exact absurd hu (by simp [Fl.isFinite])
    · right
      refine ⟨hu, hv, ?_⟩
      cases u with
      | fin b => unfold valUncert; rw [if_pos hu, calc_fin, calc_nonfin v hv]
      | _ => exact absurd hu (by simp [Fl.isFinite])
  · left; exact ⟨3, by unfold valUncert; rw [if_neg hu, pm_eq]⟩

/-- the values and uncertainties of a report -/
def Report.Holds (r : Report) (es : List Entry) : Prop :=
  r.popt = es.map (fun e => (e.name, e.v)) ∧ r.psigma = es.map (fun e => (e.name, e.u)) ∧ (es.map Entry.name).Nodup

theorem val_of {α} (es : List Entry) (f : Entry → α) (hnd : (es.map Entry.name).Nodup) (e : Entry) (he : e ∈ es) :
    Dict.val (es.map (fun e => (e.name, f e))) e.name = .ok (f e) := by
  unfold Dict.val
  rw [find_of_nodup _ (by rw [List.map_map]; exact hnd) e.name (f e) (List.mem_map.mpr ⟨e, he, rfl⟩)]

theorem mapM_ok_of {α β : Type} (f : α → Except PyErr β) (g : α → β) (l : List α) (h : ∀ x ∈ l, f x = .ok (g x)) : l.mapM f = .ok (l.map g) := by
  induction l with
  | nil => rfl
  | cons a l ih => rw [List.mapM_cons, h a (by simp), ih (fun x hx => h x (by simp [hx]))]; rfl

theorem mapM_err_of {α β : Type} (f : α → Except PyErr β) (e : PyErr) (l : List α) (h : ∀ x ∈ l, (∃ y, f x = .ok y) ∨ f x = .error e)
    (hx : ∃ x ∈ l, f x = .error e) : l.mapM f = .error e := by
  induction l with
  | nil => obtain ⟨x, hx, -⟩ := hx; simp at hx
  | cons a l ih =>
    rw [List.mapM_cons]
    rcases h a (by simp) with ⟨y, hy⟩ | hy
    · rw [hy]
      have : l.mapM f = .error e := by
        refine ih (fun x hx => h x (by simp [hx])) ?_
        obtain ⟨x, hm, he⟩ := hx
        rcases List.mem_cons.mp hm with rfl | hm
        · rw [hy] at he; exact absurd he (by simp)
        · exact ⟨x, hm, he⟩
      rw [this]; rfl
    · rw [hy]; rfl

theorem texPopt_ok (r : Report) (es : List Entry) (h : r.Holds es) (ht : r.trans = none)
    (hn : ∀ e ∈ es, valUncert e.v e.u = .ok (fmtE e.n e.v ++ " \\pm ".toList ++ fmtE 0 e.u)) :
    texPopt r = .ok (es.map (fun e => (e.name, fmtE e.n e.v ++ " \\pm ".toList ++ fmtE 0 e.u))) := by
  obtain ⟨h1, h2, h3⟩ := h
  unfold texPopt
  rw [ht, h1, h2, List.mapM_map]
  rw [mapM_ok_of _ (fun e : Entry => (e.name, fmtE e.n e.v ++ " \\pm ".toList ++ fmtE 0 e.u))]
  · rfl
  · intro e he
    simp only [Function.comp]
    rw [val_of es Entry.u h3 e he]
    simp only [bind, Except.bind]
    rw [hn e he]

theorem texPopt_err (r : Report) (es : List Entry) (h : r.Holds es) (hb : ∃ e ∈ es, e.u.isFinite ∧ ¬ e.v.isFinite) :
    texPopt r = .error .valueError := by
  obtain ⟨h1, h2, h3⟩ := h
  unfold texPopt
  rw [h1, h2, List.mapM_map]
  rw [mapM_err_of _ .valueError]
  · rfl
  · intro e he
    simp only [Function.comp]
    rw [val_of es Entry.u h3 e he]
    simp only [bind, Except.bind]
    rcases valUncert_ok e.v e.u with ⟨n, hn⟩ | ⟨-, -, hn⟩
    · left; rw [hn]; exact ⟨_, rfl⟩
    · right; rw [hn]
  · obtain ⟨e, he, hu, hv⟩ := hb
    refine ⟨e, he, ?_⟩
    simp only [Function.comp]
    rw [val_of es Entry.u h3 e he]
    simp only [bind, Except.bind]
    rcases valUncert_ok e.v e.u with ⟨n, hn⟩ | ⟨-, -, hn⟩
    · exfalso
      cases hev : e.v with
      | fin a => rw [hev] at hv; exact hv (by simp [Fl.isFinite])
      | _ => 
        cases heu : e.u with
        | fin b => rw [hev, heu] at hn; unfold valUncert at hn; rw [if_pos (by simp [Fl.isFinite]), calc_fin, calc_nonfin _ (by simp [Fl.isFinite])] at hn; cases hn
        | _ => rw [heu] at hu; simp [Fl.isFinite] at hu
    · rw [hn]

theorem relError_ok (table : List (Str × Fl) → Str) (r : Report) (es : List Entry) (h : r.Holds es) (ht : r.trans = none) :
    relError table r = .ok (relHeader ++ table (es.map (fun e => (e.name.toList ++ " \\;\\;\\; ".toList, Fl.abs (e.u / e.v))))) := by
  obtain ⟨h1, h2, h3⟩ := h
  unfold relError
  rw [ht, h1, h2, List.mapM_map, mapM_ok_of _ (fun e : Entry => (e.name, e.u / e.v))]
  · simp only [bind, Except.bind, renamed, List.map_map]
    rfl
  · intro e he
    simp only [Function.comp]
    rw [val_of es Entry.v h3 e he]
    rfl

/-- Specification: every requested part can be printed: the parameters (no infinite or missing value with a finite uncertainty), and the
statistics that are asked for are there -/
def Printable (o : Opts) (r : Report) (es : List Entry) : Prop :=
  (∀ e ∈ es, e.u.isFinite → e.v.isFinite) ∧ (o.chisq = true → r.chisq ≠ none) ∧ (o.rsq = true → r.rsq ≠ none)

/-- no extra text is asked for -/
def Opts.Bare (o : Opts) : Prop := o.guess = false ∧ o.extra = none ∧ o.annotate = none

theorem annotation_bare (table : List (Str × Fl) → Str) (sf : Str → Option Str) (o : Opts) (r : Report) (hb : o.Bare) (hf : fitFailed r = false) :
    annotation table sf o r = paramInfo table sf o r := by
  obtain ⟨h1, h2, h3⟩ := hb
  unfold annotation
  rw [hf, h1, h2, h3]
  simp only [bind, Except.bind]
  cases paramInfo table sf o r <;> rfl

theorem not_failed (r : Report) (h : ∃ kv ∈ r.popt, kv.2 ≠ Fl.nan) : fitFailed r = false := by
  unfold fitFailed
  rw [List.all_eq_false]
  obtain ⟨kv, hm, hne⟩ := h
  exact ⟨kv, hm, by simpa using hne⟩

/-- C212: the annotation of a fit with at least one value is available exactly when what is asked for can be printed.  With the default
options a report without reduced chi-squared -- `None` or a plain number, both documented -- raises AttributeError; without
R-squared, asking for it raises TypeError; an unprintable parameter raises ValueError. -/
theorem C212_available (table : List (Str × Fl) → Str) (sf : Str → Option Str) (o : Opts) (r : Report) (es : List Entry) (h : r.Holds es)
    (ht : r.trans = none) (hf : ∃ e ∈ es, e.v ≠ Fl.nan) (hb : o.Bare) :
    ((∃ t, annotation table sf o r = .ok t) ↔ Printable o r es) ∧
    ((∃ e ∈ es, e.u.isFinite ∧ ¬ e.v.isFinite) → annotation table sf o r = .error .valueError) ∧
    ((∀ e ∈ es, e.u.isFinite → e.v.isFinite) → o.chisq = true → r.chisq = none → annotation table sf o r = .error .attributeError) ∧
    ((∀ e ∈ es, e.u.isFinite → e.v.isFinite) → (o.chisq = true → r.chisq ≠ none) → o.rsq = true → r.rsq = none →
      annotation table sf o r = .error .typeError) := by
  have hnf : fitFailed r = false := not_failed r (by
    obtain ⟨e, he, hne⟩ := hf
    exact ⟨(e.name, e.v), by rw [h.1]; exact List.mem_map.mpr ⟨e, he, rfl⟩, hne⟩)
  rw [annotation_bare table sf o r hb hnf]
  have hbad : (∃ e ∈ es, e.u.isFinite ∧ ¬ e.v.isFinite) → paramInfo table sf o r = .error .valueError := by
    intro hbad
    unfold paramInfo rawLines
    rw [texPopt_err r es h hbad]
    rfl
  have hgood : (∀ e ∈ es, e.u.isFinite → e.v.isFinite) → ∃ tp, texPopt r = .ok tp := by
    intro hg
    have : ∀ e ∈ es, ∃ n, valUncert e.v e.u = .ok (fmtE n e.v ++ " \\pm ".toList ++ fmtE 0 e.u) := by
      intro e he
      rcases valUncert_ok e.v e.u with hn | ⟨h1, h2, -⟩
      · exact hn
      · exact absurd (hg e he h1) h2
    obtain ⟨h1, h2, h3⟩ := h
    unfold texPopt
    rw [ht, h1, h2, List.mapM_map]
    have key : ∃ g : Entry → String × Str, ∀ e ∈ es, ((fun kv => (do
        let u ← Dict.val (es.map (fun e => (e.name, e.u))) kv.1
        let t ← valUncert kv.2 u
        Except.ok (kv.1, t) : Except PyErr (String × Str))) ∘ fun e : Entry => (e.name, e.v)) e = .ok (g e) := by
      classical
      refine ⟨fun e => (e.name, if he : e ∈ es then fmtE (this e he).choose e.v ++ " \\pm ".toList ++ fmtE 0 e.u else []), ?_⟩
      intro e he
      simp only [Function.comp]
      rw [val_of es Entry.u h3 e he]
      simp only [bind, Except.bind]
      rw [dif_pos he]
      have hs := (this e he).choose_spec
      generalize (this e he).choose = n at hs
      rw [hs]
    obtain ⟨g, hg⟩ := key
    rw [mapM_ok_of _ g es hg]
    exact ⟨_, rfl⟩
  have hrel := relError_ok table r es h ht
  have hchi : (∀ e ∈ es, e.u.isFinite → e.v.isFinite) → o.chisq = true → r.chisq = none → paramInfo table sf o r = .error .attributeError := by
    intro hg h1 h2
    obtain ⟨tp, htp⟩ := hgood hg
    unfold paramInfo rawLines
    rw [htp, hrel, h1, h2]
    simp only [bind, Except.bind]
    cases o.rel <;> rfl
  have hraw : (∀ e ∈ es, e.u.isFinite → e.v.isFinite) → (o.chisq = true → r.chisq ≠ none) → ∃ l, rawLines table o r = .ok l := by
    intro hg h1
    obtain ⟨tp, htp⟩ := hgood hg
    unfold rawLines
    rw [htp, hrel]
    simp only [bind, Except.bind]
    cases hc : o.chisq
    · cases o.rel <;> exact ⟨_, rfl⟩
    · cases hr : r.chisq with
      | none => exact absurd hr (h1 hc)
      | some ab => cases o.rel <;> exact ⟨_, rfl⟩
  have hrsq : (∀ e ∈ es, e.u.isFinite → e.v.isFinite) → (o.chisq = true → r.chisq ≠ none) → o.rsq = true → r.rsq = none →
      paramInfo table sf o r = .error .typeError := by
    intro hg h1 h2 h3
    obtain ⟨l, hl⟩ := hraw hg h1
    unfold paramInfo
    rw [hl, h2, h3]
    rfl
  refine ⟨⟨?_, ?_⟩, hbad, hchi, hrsq⟩
  · rintro ⟨t, hok⟩
    have g1 : ∀ e ∈ es, e.u.isFinite → e.v.isFinite := by
      intro e he hu
      by_contra hv
      rw [hbad ⟨e, he, hu, hv⟩] at hok
      cases hok
    have g2 : o.chisq = true → r.chisq ≠ none := by
      intro h1 h2
      rw [hchi g1 h1 h2] at hok
      cases hok
    refine ⟨g1, g2, ?_⟩
    intro h1 h2
    rw [hrsq g1 g2 h1 h2] at hok
    cases hok
  · rintro ⟨g1, g2, g3⟩
    obtain ⟨l, hl⟩ := hraw g1 g2
    unfold paramInfo
    rw [hl]
    simp only [bind, Except.bind]
    cases hc : o.rsq
    · exact ⟨_, rfl⟩
    · cases hr : r.rsq with
      | none => exact absurd hr (g3 hc)
      | some q => exact ⟨_, rfl⟩

/-- C212 (violated expectation): parameters are accepted when every value has an uncertainty (C58), but an uncertainty without a value
makes `relative_error` raise KeyError. -/
theorem C212_spare_uncertainty (table : List (Str × Fl) → Str) (sf : Str → Option Str) (o : Opts) (r : Report) (tp : Dict Str)
    (hf : fitFailed r = false) (hb : o.Bare) (hrel : o.rel = true) (htp : texPopt r = .ok tp)
    (hk : ∃ kv ∈ r.psigma, kv.1 ∉ r.popt.map Prod.fst) :
    annotation table sf o r = .error .keyError := by
  rw [annotation_bare table sf o r hb hf]
  have key : relError table r = .error .keyError := by
    unfold relError
    rw [mapM_err_of _ .keyError]
    · rfl
    · intro kv _
      unfold Dict.val
      cases r.popt.find? (fun x => decide (x.1 = kv.1)) with
      | none => right; rfl
      | some x => left; exact ⟨_, rfl⟩
    · obtain ⟨kv, hm, hk⟩ := hk
      refine ⟨kv, hm, ?_⟩
      have : Dict.val r.popt kv.1 = .error .keyError := by
        unfold Dict.val
        have : r.popt.find? (fun x => decide (x.1 = kv.1)) = none := by
          rw [List.find?_eq_none]
          intro x hx hxe
          exact hk (List.mem_map.mpr ⟨x, hx, by simpa using hxe⟩)
        rw [this]
      rw [this]; rfl
  unfold paramInfo rawLines
  rw [htp, hrel, key]
  rfl

/-! ## C213: math mode line by line -/

/-- C213: with power-of-ten notation every line of the annotation has an even number of dollars, whatever the names, the formula and the
table of relative errors contain. -/
theorem C213_lines (table : List (Str × Fl) → Str) (sf : Str → Option Str) (o : Opts) (r : Report) (hp : o.pow = true) (hs : o.simp = false)
    (hb : o.Bare) (hf : fitFailed r = false) (t : Str) (h : annotation table sf o r = .ok t) : LinesBalanced t := by
  rw [annotation_bare table sf o r hb hf] at h
  unfold paramInfo at h
  cases hl : rawLines table o r with
  | error e => rw [hl] at h; cases h
  | ok l =>
    rw [hl] at h
    simp only [bind, Except.bind] at h
    have hc : ∀ x ∈ converted sf o l, '\n' ∉ x := by
      unfold converted
      rw [hp, hs]
      simp only [Bool.not_false, Bool.and_self, if_true, Bool.or_false]
      cases o.strip
      · exact convertPow_newline l
      · exact stripUnc_newline _ (convertPow_newline l)
    have fin : ∀ l', (∀ x ∈ l', '\n' ∉ x) → (Except.ok (finishInfo l') : Except PyErr Str) = .ok t → LinesBalanced t := by
      intro l' hl' e
      injection e with e
      rw [← e]; exact finish_balanced l' hl'
    cases hr : o.rsq
    · rw [hr] at h; exact fin _ hc h
    · rw [hr] at h
      cases hq : r.rsq with
      | none => rw [hq] at h; cases h
      | some q =>
        rw [hq] at h
        refine fin _ ?_ h
        intro x hx
        rcases List.mem_append.mp hx with hx | hx
        · exact hc x hx
        · simp at hx; subst hx; exact rsqLine_newline q

/-- C213 (violated expectation): with `convert_pow_10=False` the table of relative errors is one math expression over several lines, so
its first line has a single dollar -- for every fit. -/
theorem C213_relative_error (table : List (Str × Fl) → Str) (sf : Str → Option Str) (o : Opts) (r : Report) (hp : o.pow = false)
    (hs : o.simp = false) (hst : o.strip = false) (hrel : o.rel = true) (hb : o.Bare) (hf : fitFailed r = false) (t : Str)
    (h : annotation table sf o r = .ok t) : ¬ LinesBalanced t := by
  rw [annotation_bare table sf o r hb hf] at h
  rw [balanced_iff]
  have bad : ∀ x : Str, scan false (wrapLine (relHeader ++ x)) = false := by
    intro x
    unfold wrapLine
    have e : relHeader ++ x = '$' :: ("X \\; \\; \\; \\left|\\sigma(X)/X\\right|".toList ++ '$' :: '\n' :: ("-------\n".toList ++ x)) := rfl
    rw [if_neg (by rw [e]; simp), e]
    generalize hA : ("X \\; \\; \\; \\left|\\sigma(X)/X\\right|".toList) = A
    have hA1 : '\n' ∉ A.filter (· ≠ '$') := by rw [← hA]; decide
    have hA2 := dollar_filter A
    rw [List.filter_cons_of_neg (by simp), List.filter_append, List.filter_cons_of_neg (by simp), List.filter_cons_of_pos (by simp),
      List.append_assoc, show "$ ".toList = '$' :: [' '] from by decide, List.cons_append, scan_dollar, scan_free _ _ _ (by decide) (by decide),
      List.append_assoc, scan_free _ _ _ hA1 hA2, List.cons_append, scan_nl]
    rfl
  unfold paramInfo at h
  cases hl : rawLines table o r with
  | error e => rw [hl] at h; cases h
  | ok l =>
    have hmem : ∃ x, relHeader ++ x ∈ l := by
      unfold rawLines at hl
      cases htp : texPopt r with
      | error e => rw [htp] at hl; cases hl
      | ok tp =>
        cases hr : relError table r with
        | error e => rw [htp, hrel, hr] at hl; cases hl
        | ok rt =>
          have hrt : ∃ x, rt = relHeader ++ x := by
            unfold relError at hr
            simp only [bind, Except.bind] at hr
            split at hr
            · cases hr
            · split at hr
              · cases hr
              · injection hr with hr; exact ⟨_, hr.symm⟩
          obtain ⟨x, rfl⟩ := hrt
          refine ⟨x, ?_⟩
          rw [htp, hrel, hr] at hl
          simp only [bind, Except.bind, if_true] at hl
          generalize hB : (Chars.split '\n' r.func ++ tp.map (fun kv => kv.1.toList ++ " = ".toList ++ kv.2)) = B at hl
          have hm : relHeader ++ x ∈ B ++ [[], relHeader ++ x] := by simp
          generalize B ++ [[], relHeader ++ x] = B' at hl hm
          have hm2 : relHeader ++ x ∈ (if o.npts = true then (match r.npts with | some n => B' ++ [[], nptsLine n] | none => B') else B') := by
            cases o.npts <;> cases r.npts <;> simp [hm]
          generalize (if o.npts = true then (match r.npts with | some n => B' ++ [[], nptsLine n] | none => B') else B') = B2 at hl hm2
          cases hc : o.chisq
          · rw [hc] at hl; simp at hl; rw [← hl]; exact hm2
          · rw [hc] at hl
            cases hq : r.chisq with
            | none => rw [hq] at hl; cases hl
            | some ab =>
              rw [hq] at hl
              simp only [if_true, Except.ok.injEq] at hl
              rw [← hl]; split_ifs <;> simp [hm2]
    obtain ⟨x, hx⟩ := hmem
    rw [hl] at h
    simp only [bind, Except.bind] at h
    have hcv : converted sf o l = l := by unfold converted; rw [hp, hs, hst]; rfl
    rw [hcv] at h
    have fin : ∀ l' : List Str, relHeader ++ x ∈ l' → (Except.ok (finishInfo l') : Except PyErr Str) = .ok t → ¬ scan false t = true := by
      intro l' hl' e
      injection e with e
      rw [← e, scan_finish, List.all_eq_true]
      intro hall
      have := hall _ hl'
      rw [bad] at this
      exact absurd this (by decide)
    cases hr : o.rsq
    · rw [hr] at h; exact fin _ hx h
    · rw [hr] at h
      cases hq : r.rsq with
      | none => rw [hq] at h; cases h
      | some q => rw [hq] at h; exact fin _ (by simp [hx]) h

/-- C213 (violated expectation): the annotation of a failed fit puts the whole formula between two dollars, so for every formula of
several lines without dollars the first line has a single one. -/
theorem C213_failed_formula (table : List (Str × Fl) → Str) (sf : Str → Option Str) (o : Opts) (r : Report) (hb : o.Bare)
    (h : ∀ kv ∈ r.popt, kv.2 = Fl.nan) (a b : Str) (hfn : r.func = a ++ '\n' :: b) (hd : '$' ∉ a) :
    ∃ t, annotation table sf o r = .ok t ∧ ¬ LinesBalanced t := by
  refine ⟨_, C212_failed table sf o r h hb.1 hb.2.1 hb.2.2, ?_⟩
  rw [balanced_iff, hfn]
  have e : "$".toList ++ (a ++ '\n' :: b) ++ "$\n\nFit Failed".toList = '$' :: (a ++ '\n' :: (b ++ "$\n\nFit Failed".toList)) := by simp
  rw [e, scan_dollar, scan_append_nl]
  have : scan (!false) a = false := by
    clear hfn e
    generalize hB : (!false) = p
    have hp : p = true := hB.symm
    clear hB
    induction a with
    | nil => rw [hp]; rfl
    | cons c a ih =>
      simp only [List.mem_cons, not_or] at hd
      by_cases hc : c = '\n'
      · subst hc; rw [scan_nl, hp]; rfl
      · rw [scan_other _ _ _ hc (fun h => hd.1 h.symm)]; exact ih hd.2
  rw [this]
  simp

/-! ## C212: the exact text -/

theorem rInf_append (q : Str) (h1 : q.head? ≠ some 'n') (h2 : q.head? ≠ some 'f') (rep : Str) : ∀ p : Str,
    replaceL 'i' ['n', 'f'] rep (p ++ q) = replaceL 'i' ['n', 'f'] rep p ++ replaceL 'i' ['n', 'f'] rep q := by
  intro p
  induction hn : p.length using Nat.strong_induction_on generalizing p with
  | _ n ih =>
    match p, hn with
    | [], _ => rw [show replaceL 'i' ['n', 'f'] rep [] = [] from by rw [replaceL]]; rfl
    | c :: cs, hn =>
      rw [List.cons_append, replaceL_cons, replaceL_cons]
      by_cases h : (['i', 'n', 'f'] : Str).isPrefixOf (c :: cs) = true
      · obtain ⟨t, ht⟩ := List.isPrefixOf_iff_prefix.mp h
        have hcs : c :: cs = 'i' :: 'n' :: 'f' :: t := by rw [← ht]; rfl
        injection hcs with e1 e2
        subst e1; subst e2
        rw [if_pos h, if_pos (by rw [List.isPrefixOf_iff_prefix]; exact ⟨t ++ q, by simp⟩)]
        show rep ++ replaceL 'i' ['n', 'f'] rep (t ++ q) = rep ++ replaceL 'i' ['n', 'f'] rep t ++ _
        rw [ih t.length (by rw [← hn]; simp; omega) t rfl, List.append_assoc]
      · rw [if_neg h, if_neg, ih cs.length (by rw [← hn]; simp) cs rfl, List.cons_append]
        intro hp
        obtain ⟨t, ht⟩ := List.isPrefixOf_iff_prefix.mp hp
        match cs, h, ht with
        | [], h, ht =>
          simp only [List.cons_append, List.nil_append, List.cons.injEq] at ht
          exact h1 (by rw [← ht.2]; rfl)
        | [d], h, ht =>
          simp only [List.cons_append, List.nil_append, List.cons.injEq] at ht
          exact h2 (by rw [← ht.2.2]; rfl)
        | d :: e :: l, h, ht =>
          simp only [List.cons_append, List.nil_append, List.cons.injEq] at ht
          obtain ⟨rfl, rfl, rfl, -⟩ := ht
          exact h (by rw [List.isPrefixOf_iff_prefix]; exact ⟨l, rfl⟩)

theorem rInf_id (rep s : Str) (h : NoInf s) : replaceL 'i' ['n', 'f'] rep s = s := by
  induction s with
  | nil => rw [replaceL]
  | cons c s ih =>
    rw [replaceL_cons, if_neg (fun hp => h (List.isPrefixOf_iff_prefix.mp hp).isInfix), ih (fun hi => h (hi.trans (List.suffix_cons c s).isInfix))]

theorem NoInf.of_not_mem {s : Str} (h : 'i' ∉ s ∨ 'n' ∉ s ∨ 'f' ∉ s) : NoInf s := by
  rintro ⟨x, y, rfl⟩
  rcases h with h | h | h <;> exact h (by simp)

/-- abbreviation -/
def infty (s : Str) : Str := replaceL 'i' ['n', 'f'] "\\infty".toList s

theorem infty_append (p q : Str) (h1 : q.head? ≠ some 'n') (h2 : q.head? ≠ some 'f') : infty (p ++ q) = infty p ++ infty q :=
  rInf_append q h1 h2 _ p

theorem infty_id (s : Str) (h : NoInf s) : infty s = s := rInf_id _ s h

/-- a number with its tail: power-of-ten notation, then infinities -/
theorem infty_shown (d : ℕ) (v : Fl) (tail : Str) (ht : tail = [' '] ∨ tail = []) :
    infty (shownPow (fmtE d v) tail) = shownNum (fmtE d v) tail := by
  cases v with
  | nan => rw [fmtE_nan]; rcases ht with rfl | rfl <;> (rw [infty_id]; rfl; apply NoInf.of_not_mem; decide)
  | pinf => rw [fmtE_pinf]; rcases ht with rfl | rfl <;> (unfold infty; simp [shownPow, shownNum, replaceL])
  | ninf => rw [fmtE_ninf]; rcases ht with rfl | rfl <;> (unfold infty; simp [shownPow, shownNum, replaceL])
  | fin x =>
    have he : 'e' ∈ fmtE d (.fin x) := by show 'e' ∈ sciText d _; unfold sciText; simp
    have n1 : fmtE d (.fin x) ≠ "inf".toList := by intro h; rw [h] at he; exact absurd he (by decide)
    have n2 : fmtE d (.fin x) ≠ "-inf".toList := by intro h; rw [h] at he; exact absurd he (by decide)
    unfold shownNum
    rw [if_neg n1, if_neg n2]
    apply infty_id
    unfold shownPow
    rw [if_pos he]
    apply NoInf.of_not_mem
    right; left
    show 'n' ∉ powered (sciText d (sci d x)) ++ tail ++ ['}']
    rw [powered_sci]
    simp only [List.mem_append, not_or]
    refine ⟨⟨⟨⟨?_, by decide⟩, ?_⟩, ?_⟩, by decide⟩
    · intro h; rcases mant_chars d _ _ h with h | h | h <;> exact absurd h (by decide)
    · intro h; rcases signed_chars _ _ h with h | h | h <;> exact absurd h (by decide)
    · rcases ht with rfl | rfl <;> decide

/-- blank lines only between lines that are not blank -/
def Spaced : List Str → Prop
  | [] => True
  | [a] => a ≠ []
  | a :: [] :: b :: l => a ≠ [] ∧ Spaced (b :: l)
  | a :: b :: l => a ≠ [] ∧ Spaced (b :: l)

theorem rNl_line (a rest : Str) (ha : '\n' ∉ a) : replaceL '\n' ['\n', '\n'] ['\n', '\n'] (a ++ rest) = a ++ replaceL '\n' ['\n', '\n'] ['\n', '\n'] rest := by
  induction a with
  | nil => rfl
  | cons c a ih =>
    simp only [List.mem_cons, not_or] at ha
    rw [List.cons_append, replaceL_cons, if_neg, ih ha.2, List.cons_append]
    intro hp
    obtain ⟨t, ht⟩ := List.isPrefixOf_iff_prefix.mp hp
    simp only [List.cons_append, List.cons.injEq] at ht
    exact ha.1 ht.1

theorem rNl_one (c : Char) (rest : Str) (hc : c ≠ '\n') :
    replaceL '\n' ['\n', '\n'] ['\n', '\n'] ('\n' :: c :: rest) = '\n' :: replaceL '\n' ['\n', '\n'] ['\n', '\n'] (c :: rest) := by
  rw [replaceL_cons, if_neg]
  intro hp
  obtain ⟨t, ht⟩ := List.isPrefixOf_iff_prefix.mp hp
  simp only [List.cons_append, List.cons.injEq] at ht
  exact hc ht.2.1.symm

theorem rNl_three (rest : Str) :
    replaceL '\n' ['\n', '\n'] ['\n', '\n'] ('\n' :: '\n' :: '\n' :: rest) = '\n' :: '\n' :: replaceL '\n' ['\n', '\n'] ['\n', '\n'] rest := by
  rw [replaceL_cons, if_pos (by rw [List.isPrefixOf_iff_prefix]; exact ⟨rest, rfl⟩)]
  rfl

/-- a drawn line begins with a dollar -/
theorem joinNL_head (a : Str) (l : List Str) (ha : ∃ t, a = '$' :: t) : ∃ t, joinNL (a :: l) = '$' :: t := by
  obtain ⟨t, rfl⟩ := ha
  cases l with
  | nil => exact ⟨t, rfl⟩
  | cons b l => exact ⟨_, rfl⟩

/-- the drawn lines, newline entries for blank ones -/
def drawn (x : Str) : Str := if x = [] then ['\n'] else mathLine x

theorem collapse (ls : List Str) (h : Spaced ls) (hn : ∀ l ∈ ls, '\n' ∉ l) :
    replaceL '\n' ['\n', '\n'] ['\n', '\n'] (joinNL (ls.map drawn)) = joinNL (ls.map mathLine) := by
  have hm : ∀ a : Str, a ≠ [] → '\n' ∉ a → '\n' ∉ mathLine a ∧ drawn a = mathLine a ∧ ∃ t, mathLine a = '$' :: t := by
    intro a h1 h2
    unfold drawn mathLine
    rw [if_neg h1, if_neg h1]
    refine ⟨?_, rfl, ⟨_, rfl⟩⟩
    simp only [List.mem_append, not_or]
    exact ⟨⟨by decide, h2⟩, by decide⟩
  induction hk : ls.length using Nat.strong_induction_on generalizing ls with
  | _ k ih =>
    match ls, h, hn, hk with
    | [], _, _, _ => simp only [List.map_nil, joinNL]; rw [replaceL]
    | [a], h, hn, _ =>
      obtain ⟨h1, h2, -⟩ := hm a h (hn a (by simp))
      simp only [List.map_cons, List.map_nil, joinNL]
      rw [h2]
      have := rNl_line (mathLine a) [] h1
      rw [List.append_nil] at this
      rw [this, show replaceL '\n' ['\n', '\n'] ['\n', '\n'] [] = [] from by rw [replaceL], List.append_nil]
    | [a, []], h, _, _ => exact absurd rfl h.2
    | a :: [] :: b :: l, h, hn, hk =>
      obtain ⟨h1, h2, -⟩ := hm a h.1 (hn a (by simp))
      have hb : b ≠ [] := by
        have := h.2
        match l, this with
        | [], this => exact this
        | [] :: c :: l, this => exact this.1
        | [[]], this => exact this.1
        | (x :: y) :: l, this => exact this.1
      obtain ⟨g1, g2, g3⟩ := hm b hb (hn b (by simp))
      have hrec := ih (b :: l).length (by rw [← hk]; simp) (b :: l) h.2 (fun x hx => hn x (by simp at hx ⊢; tauto)) rfl
      simp only [List.map_cons] at hrec ⊢
      have e0 : mathLine [] = [] := rfl
      have e1 : drawn [] = ['\n'] := rfl
      rw [show joinNL (drawn a :: drawn [] :: drawn b :: l.map drawn) = drawn a ++ '\n' :: '\n' :: '\n' :: joinNL (drawn b :: l.map drawn) from by
        simp [joinNL, e1], h2, rNl_line _ _ h1, rNl_three, hrec]
      simp [joinNL, e0]
    | a :: (x :: y) :: l, h, hn, hk =>
      have h' : a ≠ [] ∧ Spaced ((x :: y) :: l) := by
        match l, h with
        | [], h => exact h
        | c :: l, h => exact h
      obtain ⟨h1, h2, -⟩ := hm a h'.1 (hn a (by simp))
      obtain ⟨g1, g2, g3⟩ := hm (x :: y) (by simp) (hn _ (by simp))
      have hrec := ih ((x :: y) :: l).length (by rw [← hk]; simp) ((x :: y) :: l) h'.2 (fun z hz => hn z (by simp at hz ⊢; tauto)) rfl
      simp only [List.map_cons] at hrec ⊢
      rw [show joinNL (drawn a :: drawn (x :: y) :: l.map drawn) = drawn a ++ '\n' :: joinNL (drawn (x :: y) :: l.map drawn) from rfl,
        h2, rNl_line _ _ h1]
      obtain ⟨t, ht⟩ := joinNL_head (drawn (x :: y)) (l.map drawn) (by rw [g2]; exact g3)
      rw [ht, rNl_one _ _ (by decide), ← ht, hrec]
      rfl

theorem infty_nil : infty [] = [] := by unfold infty; rw [replaceL]

theorem infty_ne_nil (x : Str) : infty x = [] ↔ x = [] := by
  constructor
  · intro h
    cases x with
    | nil => rfl
    | cons c cs =>
      unfold infty at h
      rw [replaceL_cons] at h
      split_ifs at h <;> simp at h
  · rintro rfl; exact infty_nil

theorem infty_mem (c : Char) (hc : c ∉ "\\infty".toList) (s : Str) (h : c ∉ s) : c ∉ infty s := by
  unfold infty
  induction hn : s.length using Nat.strong_induction_on generalizing s with
  | _ n ih =>
    match s, hn with
    | [], _ => rw [replaceL]; simp
    | a :: cs, hn =>
      rw [replaceL_cons]
      simp only [List.mem_cons, not_or] at h
      split_ifs
      · rw [List.mem_append, not_or]
        refine ⟨hc, ih _ ?_ _ ?_ rfl⟩
        · rw [← hn]; simp
        · exact fun hm => h.2 (List.mem_of_mem_drop hm)
      · rw [List.mem_cons, not_or]; exact ⟨h.1, ih cs.length (by rw [← hn]; simp) cs h.2 rfl⟩

theorem spaced_map (ls : List Str) (h : Spaced ls) : Spaced (ls.map infty) := by
  induction hk : ls.length using Nat.strong_induction_on generalizing ls with
  | _ k ih =>
    match ls, h, hk with
    | [], _, _ => trivial
    | [a], h, _ => exact fun e => h ((infty_ne_nil a).mp e)
    | [a, []], h, _ => exact absurd rfl h.2
    | a :: [] :: b :: l, h, hk =>
      have := ih (b :: l).length (by rw [← hk]; simp) (b :: l) h.2 rfl
      simp only [List.map_cons, infty_nil] at this ⊢
      exact ⟨fun e => h.1 ((infty_ne_nil a).mp e), this⟩
    | a :: (x :: y) :: l, h, hk =>
      have h' : a ≠ [] ∧ Spaced ((x :: y) :: l) := by
        match l, h with
        | [], h => exact h
        | c :: l, h => exact h
      have := ih ((x :: y) :: l).length (by rw [← hk]; simp) ((x :: y) :: l) h'.2 rfl
      obtain ⟨c, cs, hc⟩ : ∃ c cs, infty (x :: y) = c :: cs := by
        cases hi : infty (x :: y) with
        | nil => exact absurd ((infty_ne_nil _).mp hi) (by simp)
        | cons c cs => exact ⟨c, cs, rfl⟩
      simp only [List.map_cons, hc] at this ⊢
      have ha : infty a ≠ [] := fun e => h'.1 ((infty_ne_nil a).mp e)
      cases hl : l.map infty with
      | nil => rw [hl] at this; exact ⟨ha, this⟩
      | cons d ds => rw [hl] at this; exact ⟨ha, this⟩

/-- the text of spaced lines without dollars and newlines -/
theorem finish_spaced (ls : List Str) (h : Spaced ls) (hn : ∀ l ∈ ls, '\n' ∉ l) (hd : ∀ l ∈ ls, '$' ∉ l) :
    finishInfo ls = joinNL (ls.map (fun l => mathLine (infty l))) := by
  have key : ∀ ls : List Str, (∀ l ∈ ls, '$' ∉ l) → infty (joinNL (ls.map wrapLine)) = joinNL ((ls.map infty).map drawn) := by
    intro ls hd
    have hw : ∀ x : Str, '$' ∉ x → infty (wrapLine x) = drawn (infty x) := by
      intro x hx
      unfold wrapLine drawn mathLine
      by_cases he : x = []
      · subst he; rw [if_pos rfl, infty_nil, if_pos rfl, infty_id _ (NoInf.of_not_mem (by decide))]
      · rw [if_neg he, if_neg (fun e => he ((infty_ne_nil x).mp e)), if_neg (fun e => he ((infty_ne_nil x).mp e)), filter_of_not_mem _ _ hx,
          infty_append _ _ (by decide) (by decide), infty_id " $".toList (NoInf.of_not_mem (by decide))]
        have : infty ("$ ".toList ++ x) = "$ ".toList ++ infty x := by
          show infty ('$' :: ' ' :: x) = '$' :: ' ' :: infty x
          unfold infty
          rw [replaceL_cons, if_neg, replaceL_cons, if_neg]
          · intro hp; have := (List.isPrefixOf_iff_prefix.mp hp); obtain ⟨t, ht⟩ := this; simp at ht
          · intro hp; have := (List.isPrefixOf_iff_prefix.mp hp); obtain ⟨t, ht⟩ := this; simp at ht
        rw [this]
    induction ls with
    | nil => exact infty_nil
    | cons a l ih =>
      have ih := ih (fun x hx => hd x (by simp [hx]))
      cases l with
      | nil => simp only [List.map_cons, List.map_nil, joinNL]; exact hw a (hd a (by simp))
      | cons b l =>
        simp only [List.map_cons, joinNL] at ih ⊢
        rw [infty_append _ _ (by simp) (by simp), hw a (hd a (by simp))]
        have e : ∀ s : Str, infty ('\n' :: s) = '\n' :: infty s := by
          intro s
          unfold infty
          rw [replaceL_cons, if_neg]
          intro hp; have := (List.isPrefixOf_iff_prefix.mp hp); obtain ⟨t, ht⟩ := this; simp at ht
        rw [e, ih]
  unfold finishInfo
  simp only []
  have := key ls hd
  unfold infty at this
  have e : ls.map (fun x => if x = [] then ['\n'] else "$ ".toList ++ x.filter (· ≠ '$') ++ " $".toList) = ls.map wrapLine := rfl
  rw [e, this]
  rw [collapse (ls.map (fun s => replaceL 'i' ['n', 'f'] "\\infty".toList s)) (spaced_map ls h)]
  · rw [List.map_map]; rfl
  · intro l hl
    obtain ⟨x, hx, rfl⟩ := List.mem_map.mp hl
    exact infty_mem '\n' (by decide) x (hn x hx)

theorem convLine_eq {l m : Str} (h : '\n' ∉ l) (hc : convertPow [l] = [m]) : convLine l = m := by
  rw [convertPow_lines _ (by simp) (by simpa using h)] at hc
  simpa using hc

theorem convLine_plain (l : Str) (h : PlainName l) : convLine l = l := convLine_eq h.2.2.1 (C175_plain_kept l h)

theorem convLine_newline (l : Str) (h : '\n' ∉ l) : '\n' ∉ convLine l := by
  refine convertPow_newline [l] _ ?_
  rw [convertPow_lines _ (by simp) (by simpa using h)]
  simp

theorem fmtE_not_mem (d : ℕ) (x : Fl) (c : Char) (h1 : c.isDigit = false) (h2 : c ∉ ['n', 'a', 'i', 'f', '-', '.', 'e', '+']) : c ∉ fmtE d x := by
  cases x with
  | nan => rw [fmtE_nan]; intro h; apply h2; revert h; simp; tauto
  | pinf => rw [fmtE_pinf]; intro h; apply h2; revert h; simp; tauto
  | ninf => rw [fmtE_ninf]; intro h; apply h2; revert h; simp; tauto
  | fin r =>
    show c ∉ sciText d (sci d r)
    obtain ⟨E, hE, -, hEd, -⟩ := expText_eq (sci d r).e
    unfold sciText
    intro h
    rcases List.mem_append.mp h with h | h
    · rcases mant_chars d _ _ h with h | h | h
      · rw [h1] at h; exact absurd h (by decide)
      · exact h2 (by rw [h]; decide)
      · exact h2 (by rw [h]; decide)
    · rw [hE] at h
      rcases List.mem_cons.mp h with h | h
      · exact h2 (by rw [h]; decide)
      · rcases List.mem_cons.mp h with h | h
        · apply h2; rw [h]; split_ifs <;> decide
        · have := hEd _ h; rw [h1] at this; exact absurd this (by decide)

theorem paramLine_conv (e : Entry) (h : Shown1 e.name.toList) :
    infty (convLine (e.name.toList ++ " = ".toList ++ (fmtE e.n e.v ++ " \\pm ".toList ++ fmtE 0 e.u))) = paramLine e ∧
    '\n' ∉ (e.name.toList ++ " = ".toList ++ (fmtE e.n e.v ++ " \\pm ".toList ++ fmtE 0 e.u)) ∧
    '$' ∉ convLine (e.name.toList ++ " = ".toList ++ (fmtE e.n e.v ++ " \\pm ".toList ++ fmtE 0 e.u)) ∧
    convLine (e.name.toList ++ " = ".toList ++ (fmtE e.n e.v ++ " \\pm ".toList ++ fmtE 0 e.u)) ≠ [] := by
  obtain ⟨hp, hne, hd, hi⟩ := h
  have hnl : '\n' ∉ (e.name.toList ++ " = ".toList ++ (fmtE e.n e.v ++ " \\pm ".toList ++ fmtE 0 e.u)) := by
    simp only [List.mem_append, not_or]
    exact ⟨⟨hp.2.2.1, by decide⟩, ⟨fmtE_not_mem _ _ _ (by decide) (by decide), by decide⟩, fmtE_not_mem _ _ _ (by decide) (by decide)⟩
  have hc := C175_line e.name.toList hp e.v e.u e.n 0
  have e1 : e.name.toList ++ " = ".toList ++ (fmtE e.n e.v ++ " \\pm ".toList ++ fmtE 0 e.u) =
      e.name.toList ++ " = ".toList ++ fmtE e.n e.v ++ " \\pm ".toList ++ fmtE 0 e.u := by simp only [List.append_assoc]
  rw [e1] at hnl ⊢
  have hcl := convLine_eq hnl hc
  rw [hcl]
  have sp : ∀ (d : ℕ) (v : Fl) (tail : Str), (shownPow (fmtE d v) tail).head? ≠ some 'f' := by
    intro d v tail
    cases v with
    | nan => rw [fmtE_nan]; simp [shownPow]
    | pinf => rw [fmtE_pinf]; simp [shownPow]
    | ninf => rw [fmtE_ninf]; simp [shownPow]
    | fin x =>
      have he : 'e' ∈ fmtE d (.fin x) := by show 'e' ∈ sciText d _; unfold sciText; simp
      unfold shownPow
      rw [if_pos he]
      show (powered (sciText d (sci d x)) ++ tail ++ ['}']).head? ≠ some 'f'
      rw [powered_sci]
      intro h
      have : 'f' ∈ mantText d (sci d x) := by
        obtain ⟨c, hc, -⟩ := mant_last d (sci d x)
        cases hm : mantText d (sci d x) with
        | nil => rw [hm] at hc; simp at hc
        | cons a t => rw [hm] at h; simp at h; simp [h]
      rcases mant_chars d _ _ this with h | h | h <;> exact absurd h (by decide)
  have dol : ∀ (d : ℕ) (v : Fl) (tail : Str), '$' ∉ tail → '$' ∉ shownPow (fmtE d v) tail := by
    intro d v tail ht
    have hf := fmtE_not_mem d v '$' (by decide) (by decide)
    unfold shownPow
    split_ifs with he
    · unfold powered
      simp only [List.mem_append, not_or]
      refine ⟨⟨⟨⟨fun h => hf (List.takeWhile_prefix _ |>.subset h), by decide⟩, ?_⟩, ht⟩, by decide⟩
      intro h; rcases signed_chars _ _ h with h | h | h <;> exact absurd h (by decide)
    · rw [List.mem_append, not_or]; exact ⟨hf, ht⟩
  refine ⟨?_, hnl, ?_, by simp [hne]⟩
  · generalize hA : shownPow (fmtE e.n e.v) " ".toList = A
    generalize hB : shownPow (fmtE 0 e.u) [] = B
    have iA : infty A = shownNum (fmtE e.n e.v) " ".toList := by rw [← hA]; exact infty_shown _ _ _ (Or.inl (by decide))
    have iB : infty B = shownNum (fmtE 0 e.u) [] := by rw [← hB]; exact infty_shown _ _ _ (Or.inr rfl)
    have hAf : A.head? ≠ some 'f' := by rw [← hA]; exact sp _ _ _
    have hBf : B.head? ≠ some 'f' := by rw [← hB]; exact sp _ _ _
    have blank : ∀ s : Str, infty (' ' :: s) = ' ' :: infty s := by
      intro s
      unfold infty
      rw [replaceL_cons, if_neg]
      intro hp; have := (List.isPrefixOf_iff_prefix.mp hp); obtain ⟨t, ht⟩ := this; simp at ht
    have k1 : infty (e.name.toList ++ " = ".toList ++ A) = e.name.toList ++ " = ".toList ++ infty A := by
      have : e.name.toList ++ " = ".toList ++ A = (e.name.toList ++ " =".toList) ++ ' ' :: A := by
        rw [show " = ".toList = " =".toList ++ [' '] from by decide]; simp
      rw [this, infty_append _ _ (by simp) (by simp), infty_append _ _ (by decide) (by decide), infty_id _ hi,
        infty_id " =".toList (NoInf.of_not_mem (by decide)), blank]
      rw [show " = ".toList = " =".toList ++ [' '] from by decide]; simp
    have k2 : infty ("\\pm ".toList ++ B) = "\\pm ".toList ++ infty B := by
      have : "\\pm ".toList ++ B = "\\pm".toList ++ ' ' :: B := by
        rw [show "\\pm ".toList = "\\pm".toList ++ [' '] from by decide]; simp
      rw [this, infty_append _ _ (by simp) (by simp), infty_id "\\pm".toList (NoInf.of_not_mem (by decide)), blank]
      rw [show "\\pm ".toList = "\\pm".toList ++ [' '] from by decide]; simp
    have split : e.name.toList ++ " = ".toList ++ A ++ "\\pm ".toList ++ B = (e.name.toList ++ " = ".toList ++ A) ++ ("\\pm ".toList ++ B) := by
      simp only [List.append_assoc]
    rw [split, infty_append _ _ (by simp) (by simp), k1, k2, iA, iB]
    unfold paramLine
    simp only [List.append_assoc]
  · simp only [List.mem_append, not_or]
    exact ⟨⟨⟨⟨hd, by decide⟩, dol _ _ _ (by decide)⟩, by decide⟩, dol _ _ _ (by simp)⟩

theorem fmtF_fin_free (d : ℕ) (x : ℝ) (c : Char) (h1 : c.isDigit = false) (h2 : c ≠ '.') (h3 : c ≠ '-' ∨ 0 ≤ x) : c ∉ fmtF d (.fin x) := by
  intro h
  unfold fmtF at h
  rcases List.mem_append.mp h with h | h
  · split_ifs at h with hx
    · simp at h
      rcases h3 with h3 | h3
      · exact h3 h
      · exact absurd hx (not_lt.mpr h3)
    · simp at h
  · rcases List.mem_append.mp h with h | h
    · have := toDigits_digit _ c h; rw [h1] at this; exact absurd this (by decide)
    · rcases List.mem_cons.mp h with h | h
      · exact h2 h
      · have := digs_digit _ _ c h; rw [h1] at this; exact absurd this (by decide)

/-- a line the conversions leave alone -/
theorem plain_line (l : Str) (h : PlainName l) (hne : l ≠ []) (hd : '$' ∉ l) (hi : NoInf l) :
    infty (convLine l) = l ∧ '\n' ∉ l ∧ '$' ∉ convLine l ∧ convLine l ≠ [] := by
  rw [convLine_plain l h]
  exact ⟨infty_id l hi, h.2.2.1, hd, hne⟩

theorem points_plain (n : ℕ) : PlainName (pointsLine n) ∧ pointsLine n ≠ [] ∧ '$' ∉ pointsLine n ∧ NoInf (pointsLine n) := by
  have hd : ∀ c : Char, c.isDigit = false → c ∉ Nat.toDigits 10 n := fun c hc => not_mem_of_digit (toDigits_digit n) hc
  have hfree : ∀ c : Char, c.isDigit = false → c ∉ "N_\\mathrm{pts} = {".toList → c ∉ "}".toList → c ∉ pointsLine n := by
    intro c h1 h2 h3
    unfold pointsLine
    simp only [List.mem_append, not_or]
    exact ⟨⟨h2, hd c h1⟩, h3⟩
  refine ⟨⟨⟨?_, ?_, ?_, ?_⟩, ?_, hfree _ (by decide) (by decide) (by decide), ?_⟩, by unfold pointsLine; simp,
    hfree _ (by decide) (by decide) (by decide), NoInf.of_not_mem (Or.inl (hfree _ (by decide) (by decide) (by decide)))⟩
  · exact NoPair.of_not_mem (Or.inl (hfree _ (by decide) (by decide) (by decide)))
  · exact NoPair.of_not_mem (Or.inl (hfree _ (by decide) (by decide) (by decide)))
  · exact NoPair.of_not_mem (Or.inl (hfree _ (by decide) (by decide) (by decide)))
  · exact NoPair.of_not_mem (Or.inl (hfree _ (by decide) (by decide) (by decide)))
  · unfold pointsLine
    refine NoPm.append (NoPm.append (by unfold NoPm; decide) (NoPm.of_not_mem (hd _ (by decide))) ?_ ?_) (NoPm.of_not_mem (by decide)) (by decide) (by decide)
    · intro h; exact absurd (List.mem_of_mem_head? h) (hd _ (by decide))
    · intro h; exact absurd (List.mem_of_mem_head? h) (hd _ (by decide))
  · unfold pointsLine
    rw [List.count_append, List.count_append, List.count_append, List.count_append, List.count_eq_zero.mpr (hd '{' (by decide)),
      List.count_eq_zero.mpr (hd '}' (by decide))]
    decide

theorem chi_plain (a b : ℝ) (ha : 0 ≤ a) (hb : 0 ≤ b) : PlainName (chiLine a b) ∧ chiLine a b ≠ [] ∧ '$' ∉ chiLine a b ∧ NoInf (chiLine a b) := by
  have fa : ∀ c : Char, c.isDigit = false → c ≠ '.' → c ∉ fmtF 2 (.fin a) := fun c h1 h2 => fmtF_fin_free 2 a c h1 h2 (Or.inr ha)
  have fb : ∀ c : Char, c.isDigit = false → c ≠ '.' → c ∉ fmtF 2 (.fin b) := fun c h1 h2 => fmtF_fin_free 2 b c h1 h2 (Or.inr hb)
  have hfree : ∀ c : Char, c.isDigit = false → c ≠ '.' → c ∉ "\\chi^2_\\nu = {} \\; R".toList → c ∉ chiLine a b := by
    intro c h1 h2 h3
    unfold chiLine
    have e1 : c ∉ "\\chi^2_\\nu = {".toList := fun h => h3 ((by decide : ∀ x ∈ _, x ∈ _) c h)
    have e2 : c ∉ "} \\; \\; \\; \\; \\; \\; \\; \\; \\; \\; \\; \\; \\; \\; \\; \\; \\chi^2_{\\nu;R} = {".toList :=
      fun h => h3 ((by decide : ∀ x ∈ _, x ∈ _) c h)
    have e3 : c ∉ "}".toList := fun h => h3 ((by decide : ∀ x ∈ _, x ∈ _) c h)
    simp only [List.mem_append, not_or]
    exact ⟨⟨⟨⟨e1, fa c h1 h2⟩, e2⟩, fb c h1 h2⟩, e3⟩
  refine ⟨⟨⟨?_, ?_, ?_, ?_⟩, ?_, hfree _ (by decide) (by decide) (by decide), ?_⟩, by unfold chiLine; simp,
    hfree _ (by decide) (by decide) (by decide), NoInf.of_not_mem (Or.inr (Or.inr (hfree _ (by decide) (by decide) (by decide))))⟩
  · exact NoPair.of_not_mem (Or.inl (hfree _ (by decide) (by decide) (by decide)))
  · exact NoPair.of_not_mem (Or.inl (hfree _ (by decide) (by decide) (by decide)))
  · exact NoPair.of_not_mem (Or.inl (hfree _ (by decide) (by decide) (by decide)))
  · exact NoPair.of_not_mem (Or.inl (hfree _ (by decide) (by decide) (by decide)))
  · rintro ⟨x, y, h⟩; exact hfree 'p' (by decide) (by decide) (by decide) (by rw [← h]; simp)
  · unfold chiLine
    simp only [List.count_append]
    rw [List.count_eq_zero.mpr (fa '{' (by decide) (by decide)), List.count_eq_zero.mpr (fa '}' (by decide) (by decide)),
      List.count_eq_zero.mpr (fb '{' (by decide) (by decide)), List.count_eq_zero.mpr (fb '}' (by decide) (by decide))]
    decide

theorem joinNL_eq (l : List Str) : joinNL l = Chars.join '\n' l := by
  induction l with
  | nil => rfl
  | cons a l ih => cases l with
    | nil => rfl
    | cons b l => rw [joinNL, ih]; rfl

theorem spaced_append (a : List Str) (b : List Str) (ha : ∀ x ∈ a, x ≠ []) (hb : Spaced b) : Spaced (a ++ b) := by
  induction a with
  | nil => exact hb
  | cons x a ih =>
    have hx := ha x (by simp)
    have ih := ih (fun y hy => ha y (by simp [hy]))
    cases hab : a ++ b with
    | nil => rw [List.cons_append, hab]; exact hx
    | cons y l =>
      rw [List.cons_append, hab]
      rw [hab] at ih
      cases y with
      | cons c cs => cases l <;> exact ⟨hx, ih⟩
      | nil =>
        cases l with
        | nil => exact ⟨hx, ih⟩
        | cons z l =>
          -- a blank line can only come first in `b`, or there is none
          exfalso
          have : a = [] ∨ ∃ w a', a = w :: a' := by cases a <;> simp
          rcases this with rfl | ⟨w, a', rfl⟩
          · rw [List.nil_append] at hab
            rw [hab] at hb
            revert hb
            cases z <;> cases l <;> simp [Spaced]
          · rw [List.cons_append] at hab
            injection hab with h1 h2
            exact ha w (by simp) h1

/-- a blank line after lines that are not blank -/
theorem spaced_blank (a : List Str) (b : List Str) (hne : a ≠ []) (ha : ∀ x ∈ a, x ≠ []) (hbne : b ≠ []) (hb : ∀ x ∈ b, x ≠ []) : Spaced (a ++ [] :: b) := by
  obtain ⟨a', z, rfl⟩ : ∃ a' z, a = a' ++ [z] := ⟨a.dropLast, a.getLast hne, (List.dropLast_append_getLast hne).symm⟩
  rw [List.append_assoc]
  refine spaced_append a' _ (fun x hx => ha x (by simp [hx])) ?_
  cases b with
  | nil => exact absurd rfl hbne
  | cons y l =>
    have : Spaced (y :: l) := by
      have := spaced_append (y :: l) [] hb trivial
      rwa [List.append_nil] at this
    exact ⟨ha z (by simp), this⟩

/-- the annotation, for any conversion of the lines that leaves formula and statistics alone -/
theorem text_core (table : List (Str × Fl) → Str) (sf : Str → Option Str) (o : Opts) (r : Report) (fs : List Str) (es : List Entry)
    (cv : Str → Str) (line : Entry → Str)
    (hb : o.Bare) (hrel : o.rel = false) (hnf : fitFailed r = false)
    (hcv : ∀ L : List Str, L ≠ [] → (∀ l ∈ L, '\n' ∉ l) → converted sf o L = L.map cv)
    (hT : texPopt r = .ok (es.map (fun e => (e.name, fmtE e.n e.v ++ " \\pm ".toList ++ fmtE 0 e.u))))
    (hpl : ∀ e ∈ es, ∀ x, x = e.name.toList ++ " = ".toList ++ (fmtE e.n e.v ++ " \\pm ".toList ++ fmtE 0 e.u) →
      infty (cv x) = line e ∧ '\n' ∉ x ∧ '$' ∉ cv x ∧ '\n' ∉ cv x ∧ cv x ≠ [])
    (hfun : r.func = Chars.join '\n' fs) (hfs : fs ≠ []) (hfp : ∀ l ∈ fs, Shown1 l) (cF : ∀ l ∈ fs, cv l = l)
    (n : ℕ) (hnp : o.npts = true → r.npts = some (n : ℤ)) (a b : ℝ) (ha : 0 ≤ a) (hb0 : 0 ≤ b)
    (hchi : o.chisq = true → r.chisq = some (.fin a, .fin b)) (q : ℝ) (hq : o.rsq = true → r.rsq = some (.fin q))
    (cn : cv [] = []) (cN : cv (pointsLine n) = pointsLine n) (cC : cv (chiLine a b) = chiLine a b) :
    annotation table sf o r = .ok (Chars.join '\n' ((expected line fs es (if o.npts then some n else none) (if o.chisq then some (a, b) else none)
      (if o.rsq then some q else none)).map mathLine)) := by
  rw [annotation_bare table sf o r hb hnf]
  obtain ⟨P, hP⟩ : ∃ P : List Str, P = es.map (fun e => e.name.toList ++ " = ".toList ++ (fmtE e.n e.v ++ " \\pm ".toList ++ fmtE 0 e.u)) := ⟨_, rfl⟩
  obtain ⟨S, hS⟩ : ∃ S : List Str, S = (if o.npts then (if o.chisq then [[], pointsLine n, chiLine a b] else [[], pointsLine n])
      else (if o.chisq then [[], chiLine a b] else [])) := ⟨_, rfl⟩
  have hraw : rawLines table o r = .ok (fs ++ P ++ S) := by
    unfold rawLines
    rw [hT, hrel]
    simp only [bind, Except.bind]
    have hbase : Chars.split '\n' r.func = fs := by
      rw [hfun, Chars.split_join '\n' fs hfs (fun l hl => (hfp l hl).1.2.2.1)]
    rw [hbase, List.map_map]
    have hP' : es.map ((fun kv : String × Str => kv.1.toList ++ " = ".toList ++ kv.2) ∘ fun e : Entry => (e.name, fmtE e.n e.v ++ " \\pm ".toList ++ fmtE 0 e.u)) = P := by
      rw [hP]; rfl
    rw [hP', hS]
    have hN : nptsLine (n : ℤ) = pointsLine n := by
      unfold nptsLine pointsLine intText
      rw [if_neg (by omega), Int.natAbs_natCast]
      rfl
    have hC : chisqLine (.fin a) (.fin b) = chiLine a b := rfl
    cases h1 : o.npts <;> cases h2 : o.chisq
    · simp
    · rw [hchi h2]; simp [hC]
    · rw [hnp h1]; simp [hN]
    · rw [hnp h1, hchi h2]; simp [hC, hN]
  have hSall : ∀ l ∈ S, l = [] ∨ l = pointsLine n ∨ l = chiLine a b := by
    intro l hl
    rw [hS] at hl
    revert hl
    cases o.npts <;> cases o.chisq <;> simp <;> tauto
  obtain ⟨p1, p2, p3, p4⟩ := points_plain n
  obtain ⟨c1, c2, c3, c4⟩ := chi_plain a b ha hb0
  have cp : infty (cv (pointsLine n)) = pointsLine n ∧ '\n' ∉ pointsLine n ∧ '$' ∉ cv (pointsLine n) ∧ cv (pointsLine n) ≠ [] := by
    rw [cN]; exact ⟨infty_id _ p4, p1.2.2.1, p3, p2⟩
  have cc : infty (cv (chiLine a b)) = chiLine a b ∧ '\n' ∉ chiLine a b ∧ '$' ∉ cv (chiLine a b) ∧ cv (chiLine a b) ≠ [] := by
    rw [cC]; exact ⟨infty_id _ c4, c1.2.2.1, c3, c2⟩
  have hcl : ∀ l ∈ fs ++ P ++ S, '\n' ∉ l ∧ '$' ∉ cv l ∧ '\n' ∉ cv l := by
    intro l hl
    rcases List.mem_append.mp hl with hl | hl
    · rcases List.mem_append.mp hl with hl | hl
      · obtain ⟨q1, q2, q3, q4⟩ := hfp l hl
        rw [cF l hl]
        exact ⟨q1.2.2.1, q3, q1.2.2.1⟩
      · rw [hP] at hl; obtain ⟨e, he, rfl⟩ := List.mem_map.mp hl
        obtain ⟨-, k2, k3, k4, -⟩ := hpl e he _ rfl
        exact ⟨k2, k3, k4⟩
    · rcases hSall l hl with rfl | rfl | rfl
      · rw [cn]; simp
      · exact ⟨cp.2.1, cp.2.2.1, by rw [cN]; exact cp.2.1⟩
      · exact ⟨cc.2.1, cc.2.2.1, by rw [cC]; exact cc.2.1⟩
  have hconv : converted sf o (fs ++ P ++ S) = (fs ++ P ++ S).map cv := hcv _ (by simp [hfs]) (fun l hl => (hcl l hl).1)
  obtain ⟨Q, hQ⟩ : ∃ Q : List Str, Q = (if o.rsq then [detLine q] else []) := ⟨_, rfl⟩
  have hmain : paramInfo table sf o r = .ok (finishInfo ((fs ++ P ++ S).map cv ++ Q)) := by
    unfold paramInfo
    rw [hraw]
    simp only [bind, Except.bind]
    rw [hconv, hQ]
    cases hr : o.rsq
    · simp
    · rw [hq hr]; rfl
  have hdq : '\n' ∉ detLine q ∧ '$' ∉ detLine q ∧ infty (detLine q) = detLine q ∧ detLine q ≠ [] := by
    have hfree : ∀ c : Char, c.isDigit = false → c ≠ '.' → c ≠ '-' → c ∉ "R^2 = ".toList → c ∉ detLine q := by
      intro c h1 h2 h3 h4
      unfold detLine
      rw [List.mem_append, not_or]
      exact ⟨h4, fmtF_fin_free 2 q c h1 h2 (Or.inl h3)⟩
    exact ⟨hfree _ (by decide) (by decide) (by decide) (by decide), hfree _ (by decide) (by decide) (by decide) (by decide),
      infty_id _ (NoInf.of_not_mem (Or.inl (hfree _ (by decide) (by decide) (by decide) (by decide)))), by unfold detLine; simp⟩
  have hQall : ∀ l ∈ Q, l = detLine q := by
    intro l hl
    rw [hQ] at hl
    split_ifs at hl
    · simpa using hl
    · simp at hl
  have hA : ∀ x ∈ (fs ++ P).map cv, x ≠ [] := by
    intro x hx
    obtain ⟨l, hl, rfl⟩ := List.mem_map.mp hx
    rcases List.mem_append.mp hl with hl | hl
    · obtain ⟨q1, q2, q3, q4⟩ := hfp l hl
      rw [cF l hl]; exact q2
    · rw [hP] at hl; obtain ⟨e, he, rfl⟩ := List.mem_map.mp hl
      exact (hpl e he _ rfl).2.2.2.2
  have hsp : Spaced ((fs ++ P ++ S).map cv ++ Q) := by
    rw [List.map_append, List.append_assoc]
    have hQn : ∀ x ∈ Q, x ≠ [] := fun x hx => by rw [hQall x hx]; exact hdq.2.2.2
    have hS' : S = [] ∨ ∃ T, S = [] :: T ∧ T ≠ [] ∧ ∀ x ∈ T, x = pointsLine n ∨ x = chiLine a b := by
      rw [hS]
      cases o.npts <;> cases o.chisq <;> simp
    rcases hS' with hS' | ⟨T, hT, hTn, hTa⟩
    · rw [hS']
      have := spaced_append ((fs ++ P).map cv ++ ([].map cv ++ Q)) [] (by
        intro x hx
        rcases List.mem_append.mp hx with hx | hx
        · exact hA x hx
        · exact hQn x (by simpa using hx)) trivial
      rwa [List.append_nil] at this
    · rw [hT, List.map_cons, cn, List.cons_append]
      refine spaced_blank _ _ (by simp [hfs]) hA (by simp [hTn]) ?_
      intro x hx
      rcases List.mem_append.mp hx with hx | hx
      · obtain ⟨l, hl, rfl⟩ := List.mem_map.mp hx
        rcases hTa l hl with rfl | rfl
        · exact cp.2.2.2
        · exact cc.2.2.2
      · exact hQn x hx
  rw [hmain, finish_spaced _ hsp, joinNL_eq]
  · congr 2
    have e1 : ∀ l ∈ fs, infty (cv l) = l := by
      intro l hl
      obtain ⟨q1, q2, q3, q4⟩ := hfp l hl
      rw [cF l hl]; exact infty_id _ q4
    have e2 : ∀ l ∈ S, infty (cv l) = l := by
      intro l hl
      rcases hSall l hl with rfl | rfl | rfl
      · rw [cn, infty_nil]
      · exact cp.1
      · exact cc.1
    have e3 : ∀ l ∈ Q, infty l = l := by
      intro l hl; rw [hQall l hl]; exact hdq.2.2.1
    rw [List.map_append, List.map_map, List.map_append, List.map_append]
    have m1 : fs.map ((fun l => mathLine (infty l)) ∘ cv) = fs.map mathLine :=
      List.map_congr_left (fun l hl => by simp only [Function.comp]; rw [e1 l hl])
    have m2 : S.map ((fun l => mathLine (infty l)) ∘ cv) = S.map mathLine :=
      List.map_congr_left (fun l hl => by simp only [Function.comp]; rw [e2 l hl])
    have m3 : Q.map (fun l => mathLine (infty l)) = Q.map mathLine :=
      List.map_congr_left (fun l hl => by rw [e3 l hl])
    have m4 : P.map ((fun l => mathLine (infty l)) ∘ cv) = (es.map line).map mathLine := by
      rw [hP, List.map_map, List.map_map]
      exact List.map_congr_left (fun e he => by simp only [Function.comp]; rw [(hpl e he _ rfl).1])
    rw [m1, m2, m3, m4, ← List.map_append, ← List.map_append, ← List.map_append]
    congr 1
    rw [hS, hQ]
    unfold expected
    cases o.npts <;> cases o.chisq <;> cases o.rsq <;> rfl
  · intro l hl
    rcases List.mem_append.mp hl with hl | hl
    · obtain ⟨x, hx, rfl⟩ := List.mem_map.mp hl; exact (hcl x hx).2.2
    · rw [hQall l hl]; exact hdq.1
  · intro l hl
    rcases List.mem_append.mp hl with hl | hl
    · obtain ⟨x, hx, rfl⟩ := List.mem_map.mp hl; exact (hcl x hx).2.1
    · rw [hQall l hl]; exact hdq.2.1

/-- C212: the statistics are printed to two decimals: the number read back is within half a unit of the second decimal. -/
theorem C212_statistics (x : ℝ) : |reads (fmtF 2 (.fin x)) - x| ≤ 0.005 := by
  have h := roundHE_spec (|x| * 10 ^ 2) (by positivity)
  obtain ⟨m, hm⟩ : ∃ m, m = roundHE (|x| * 10 ^ 2) := ⟨_, rfl⟩
  have hne : Nat.toDigits 10 (m / 10 ^ 2) ≠ [] := Nat.toDigits_ne_nil
  have e := (readDec_point (decide (x < 0)) (Nat.toDigits 10 (m / 10 ^ 2)) (digs 2 m) hne (toDigits_digit _) (digs_digit _ _)).1
  have hval : natOf (Nat.toDigits 10 (m / 10 ^ 2) ++ digs 2 m) = m := by
    rw [natOf_append _ _ (digs_digit _ _), toDigits_val, digs_length]
    have := digs_val 2 m 0
    have h2 : natOf (digs 2 m) = m % 10 ^ 2 := by unfold natOf; rw [this]; simp
    rw [h2]; exact Nat.div_add_mod' m (10 ^ 2)
  rw [hval, digs_length] at e
  have ef : fmtF 2 (.fin x) = (if decide (x < 0) = true then ['-'] else []) ++ (Nat.toDigits 10 (m / 10 ^ 2) ++ '.' :: digs 2 m) := by
    rw [hm]; unfold fmtF; simp
  rw [ef, e]
  rw [← hm] at h
  by_cases hx : x < 0
  · rw [abs_of_neg hx] at h
    simp only [hx, decide_true, if_true]
    rw [abs_le] at h ⊢
    constructor <;> linarith [h.1, h.2]
  · rw [abs_of_nonneg (not_lt.mp hx)] at h
    simp only [hx, decide_false, if_false, Bool.false_eq_true]
    rw [abs_le] at h ⊢
    constructor <;> linarith [h.1, h.2]

/-! ### examples -/

/-- a straight line, slope and intercept with their uncertainties -/
noncomputable def toyReport : Report where
  popt := [("m", .fin 2), ("b", .fin 3)]
  psigma := [("m", .fin (1 / 10)), ("b", .pinf)]
  func := "f(x) = m x + b".toList
  chisq := some (.fin 1, .fin 2)
  rsq := some (.fin (1 / 2))
  npts := some 12
  trans := none
  guess := .ok none

example : ∃ n : ℕ, ∃ es : List Entry, es.length = 2 ∧ toyReport.Holds es ∧ (∃ e ∈ es, e.v ≠ Fl.nan) ∧
    (∀ e ∈ es, valUncert e.v e.u = .ok (fmtE e.n e.v ++ " \\pm ".toList ++ fmtE 0 e.u)) ∧
    (∀ e ∈ es, Shown1 e.name.toList) ∧ (∀ l ∈ ["f(x) = m x + b".toList], Shown1 l) ∧ Printable { npts := true, rsq := true } toyReport es ∧ n = 12 := by
  have h1 : ∃ n, valUncert (.fin 2) (.fin (1 / 10)) = .ok (fmtE n (.fin 2) ++ " \\pm ".toList ++ fmtE 0 (.fin (1 / 10))) := by
    rcases valUncert_ok (.fin 2) (.fin (1 / 10)) with h | ⟨-, h, -⟩
    · exact h
    · exact absurd (by simp [Fl.isFinite]) h
  have h2 : ∃ n, valUncert (.fin 3) .pinf = .ok (fmtE n (.fin 3) ++ " \\pm ".toList ++ fmtE 0 .pinf) := by
    rcases valUncert_ok (.fin 3) .pinf with h | ⟨h, -, -⟩
    · exact h
    · exact absurd h (by simp [Fl.isFinite])
  obtain ⟨n1, h1⟩ := h1
  obtain ⟨n2, h2⟩ := h2
  refine ⟨12, [⟨"m", .fin 2, .fin (1 / 10), n1⟩, ⟨"b", .fin 3, .pinf, n2⟩], rfl, ⟨rfl, rfl, by simp⟩, ⟨_, List.mem_cons_self, by simp⟩, ?_, ?_, ?_, ?_, rfl⟩
  · intro e he
    rcases List.mem_cons.mp he with rfl | he
    · exact h1
    · rcases List.mem_cons.mp he with rfl | he
      · exact h2
      · simp at he
  · have : ∀ l ∈ ["m".toList, "b".toList], Shown1 l := by unfold Shown1 PlainName Calm NoPair NoPm NoInf; decide
    intro e he; simp at he; rcases he with rfl | rfl
    · exact this _ (by simp)
    · exact this _ (by simp)
  · unfold Shown1 PlainName Calm NoPair NoPm NoInf; decide
  · refine ⟨?_, by intro _; simp [toyReport], by intro _; simp [toyReport]⟩
    intro e he; simp at he; rcases he with rfl | rfl <;> simp [Fl.isFinite]

/-- a failed fit of a formula of several lines (`HeavySide`, heaviside.py:177-184) -/
example : (∀ kv ∈ ([("x0", .nan), ("y0", .nan), ("y1", .nan)] : Dict Fl), kv.2 = Fl.nan) ∧ '$' ∉ "f(x) = y_1 \\cdot H(x_0 - x) + y_0".toList ∧
    "f(x) = y_1 \\cdot H(x_0 - x) + y_0\nx < x_0: f(x) = y_0 + y_1\nx > x_0: f(x) = y_0".toList =
      "f(x) = y_1 \\cdot H(x_0 - x) + y_0".toList ++ '\n' :: "x < x_0: f(x) = y_0 + y_1\nx > x_0: f(x) = y_0".toList := by
  refine ⟨by intro kv h; simp at h; rcases h with rfl | rfl | rfl <;> rfl, by decide, by decide⟩

end Tex
end SW
