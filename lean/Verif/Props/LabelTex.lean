import Verif.LabelTex
import Verif.Props.Labels2
import Mathlib.Data.List.TakeWhile

/-!
# The LaTeX text of measurement labels (C197–C199)
-/

namespace SW
namespace Labels

/-! ## Specification: balanced LaTeX

A backslash takes the next character with it (`\{` opens no group).  `texDepth` is the number of groups left open, none if a group is
closed that was never opened. -/

def texDepth : Bool → Nat → List Char → Option Nat
  | _, d, [] => some d
  | true, d, _ :: cs => texDepth false d cs
  | false, d, c :: cs =>
    if c = '\\' then texDepth true d cs
    else if c = '{' then texDepth false (d + 1) cs
    else if c = '}' then (match d with | 0 => none | e + 1 => texDepth false e cs)
    else texDepth false d cs

/-- every group that is opened is closed again, and none is closed that is not open -/
def Balanced (l : List Char) : Prop := texDepth false 0 l = some 0

/-- text without braces, backslashes and dollar signs -/
def Plain (s : String) : Prop := ∀ c ∈ s.toList, c ≠ '{' ∧ c ≠ '}' ∧ c ≠ '\\' ∧ c ≠ '$'

/-! ## A stricter scanner used in the proofs

It also demands that no dollar occurs and that a backslash is followed by a letter, `#` or `%`, or by one punctuation character and a blank. -/

inductive Mode
  | text
  | esc
  | punct
  deriving DecidableEq

def Mode.isEsc : Mode → Bool
  | .esc => true
  | _ => false

def step : Mode × Nat → Char → Option (Mode × Nat)
  | (.text, d), c =>
    if c = '\\' then some (.esc, d) else if c = '{' then some (.text, d + 1)
    else if c = '}' then (match d with | 0 => none | e + 1 => some (.text, e)) else if c = '$' then none else some (.text, d)
  | (.esc, d), c => if c.isAlpha ∨ c = '#' ∨ c = '%' then some (.text, d) else if c = ',' ∨ c = ';' ∨ c = ':' then some (.punct, d) else none
  | (.punct, d), c => if c = ' ' then some (.text, d) else none

def run : Mode × Nat → List Char → Option (Mode × Nat)
  | q, [] => some q
  | q, c :: cs => match step q c with
    | none => none
    | some r => run r cs

theorem run_append (l l' : List Char) : ∀ q, run q (l ++ l') = (run q l).bind (run · l') := by
  induction l with
  | nil => intro q; rfl
  | cons c cs ih =>
    intro q
    simp only [List.cons_append, run]
    cases step q c with
    | none => rfl
    | some r => exact ih r

/-- a replacement that does not change what the scanner sees -/
def Harmless (old new : List Char) : Prop := ∀ q, run q old = none ∨ run q new = run q old

theorem run_repl {old new : List Char} (hne : old ≠ []) (h : Harmless old new) : ∀ (n : Nat) (l : List Char), l.length ≤ n → ∀ q r,
    run q l = some r → run q (replGo old new 0 l) = some r := by
  intro n
  induction n with
  | zero =>
    intro l hl q r hr
    obtain rfl : l = [] := List.length_eq_zero_iff.mp (by omega)
    simpa [replGo] using hr
  | succ n ih =>
    intro l hl q r hr
    by_cases hp : old <+: l
    · obtain ⟨cs, rfl⟩ := hp
      rw [replGo_match old new cs hne, run_append]
      rw [run_append] at hr
      rcases h q with hq | hq
      · rw [hq] at hr; simp at hr
      · rw [hq]
        cases hro : run q old with
        | none => rw [hro] at hr; simp at hr
        | some q' =>
          rw [hro] at hr
          simp only [Option.bind_some] at hr ⊢
          refine ih cs ?_ q' r hr
          have := List.length_pos_iff.mpr hne
          rw [List.length_append] at hl
          omega
    · cases l with
      | nil => simpa [replGo] using hr
      | cons c cs =>
        rw [replGo_cons old new c cs hp]
        simp only [run] at hr ⊢
        cases hst : step q c with
        | none => rw [hst] at hr; simp at hr
        | some q' =>
          rw [hst] at hr
          exact ih cs (by simp at hl; omega) q' r hr

theorem cleanUps_harmless : ∀ a ∈ cleanUps, a.1.toList ≠ [] ∧ Harmless a.1.toList a.2.toList := by
  intro a ha
  simp only [cleanUps, List.mem_cons, List.not_mem_nil, or_false] at ha
  rcases ha with rfl | rfl | rfl | rfl | rfl | rfl | rfl | rfl | rfl | rfl | rfl | rfl | rfl | rfl | rfl <;>
  · refine ⟨by decide +kernel, ?_⟩
    rintro ⟨m, d⟩
    cases m <;> first
      | (left; rfl)
      | (right; rfl)
      | (cases d with
          | zero => first | (left; rfl) | (right; rfl)
          | succ d => first | (left; rfl) | (right; rfl))

theorem run_clean : ∀ (cl : List (String × String)), (∀ a ∈ cl, a.1.toList ≠ [] ∧ Harmless a.1.toList a.2.toList) → ∀ l q r,
    run q l = some r → run q (cl.foldl (fun l a => replGo a.1.toList a.2.toList 0 l) l) = some r := by
  intro cl
  induction cl with
  | nil => intro _ l q r h; exact h
  | cons a cl ih =>
    intro hc l q r h
    rw [List.foldl_cons]
    refine ih (fun b hb => hc b (List.mem_cons_of_mem _ hb)) _ q r ?_
    obtain ⟨h1, h2⟩ := hc a List.mem_cons_self
    exact run_repl h1 h2 _ l le_rfl q r h

/-- the scanner accepts `l` from outside all groups and ends outside all groups, not just after a backslash -/
def Acc (l : List Char) : Prop := ∃ m, m ≠ Mode.esc ∧ run (.text, 0) l = some (m, 0)

theorem rstrip_decomp (p : Char → Bool) (l : List Char) : ∃ t, l = rstripL p l ++ t ∧ ∀ c ∈ t, p c = true := by
  refine ⟨(l.reverse.takeWhile p).reverse, ?_, ?_⟩
  · have := List.takeWhile_append_dropWhile (p := p) (l := l.reverse)
    have h2 := congrArg List.reverse this
    rw [List.reverse_append, List.reverse_reverse] at h2
    exact h2.symm
  · intro c hc
    rw [List.mem_reverse] at hc
    exact List.mem_takeWhile_imp hc

theorem run_neutral {q : Mode × Nat} {t : List Char} {m : Mode} (ht : ∀ c ∈ t, c = '_' ∨ c = ' ') (hm : m ≠ .esc)
    (h : run q t = some (m, 0)) : q.1 ≠ .esc ∧ q.2 = 0 := by
  induction t generalizing q with
  | nil =>
    simp only [run, Option.some.injEq] at h
    subst h
    exact ⟨hm, rfl⟩
  | cons c cs ih =>
    simp only [run] at h
    obtain ⟨qm, qd⟩ := q
    have hc := ht c List.mem_cons_self
    cases hst : step (qm, qd) c with
    | none => rw [hst] at h; simp at h
    | some r =>
      rw [hst] at h
      obtain ⟨h1, h2⟩ := ih (fun c hc => ht c (List.mem_cons_of_mem _ hc)) h
      rcases hc with rfl | rfl <;> cases qm <;> simp [step] at hst <;> subst hst <;> simp_all

theorem acc_rstrip {p : Char → Bool} (hp : ∀ c, p c = true → c = '_' ∨ c = ' ') {l : List Char} (h : Acc l) : Acc (rstripL p l) := by
  obtain ⟨m, hm, hr⟩ := h
  obtain ⟨t, ht, htc⟩ := rstrip_decomp p l
  rw [ht, run_append] at hr
  cases hq : run (.text, 0) (rstripL p l) with
  | none => rw [hq] at hr; simp at hr
  | some q =>
    rw [hq] at hr
    obtain ⟨h1, h2⟩ := run_neutral (fun c hc => hp c (htc c hc)) hm hr
    exact ⟨q.1, h1, by rw [hq, ← h2]⟩

theorem acc_lstrip {l : List Char} (h : Acc l) : Acc (l.dropWhile (· == ' ')) := by
  obtain ⟨m, hm, hr⟩ := h
  refine ⟨m, hm, ?_⟩
  induction l with
  | nil => simpa using hr
  | cons c cs ih =>
    by_cases hc : c = ' '
    · subst hc
      rw [List.dropWhile_cons_of_pos (by simp)]
      exact ih (by simpa [run, step] using hr)
    · rw [List.dropWhile_cons_of_neg (by simpa using hc)]
      exact hr

theorem acc_clean {l : List Char} (h : Acc l) : Acc (cleanL l) := by
  obtain ⟨m, hm, hr⟩ := h
  have h1 : Acc (cleanUps.foldl (fun l a => replGo a.1.toList a.2.toList 0 l) l) := ⟨m, hm, run_clean cleanUps cleanUps_harmless l _ _ hr⟩
  have hb : ∀ c : Char, (c == ' ') = true → c = '_' ∨ c = ' ' := fun c hc => Or.inr (by simpa using hc)
  have hu : ∀ c : Char, (c == '_') = true → c = '_' ∨ c = ' ' := fun c hc => Or.inl (by simpa using hc)
  exact acc_rstrip hb (acc_lstrip (acc_rstrip hb (acc_lstrip (acc_rstrip hu h1))))

/-! ### From the strict scanner to the specification -/

theorem run_depth {l : List Char} : ∀ {m : Mode} {d : Nat} {m' : Mode} {d' : Nat}, run (m, d) l = some (m', d') → m' ≠ .esc →
    (∀ r, texDepth m.isEsc d (l ++ r) = texDepth false d' r) ∧ '$' ∉ l := by
  induction l with
  | nil =>
    intro m d m' d' h hm
    simp only [run, Option.some.injEq, Prod.mk.injEq] at h
    obtain ⟨rfl, rfl⟩ := h
    refine ⟨fun r => ?_, by simp⟩
    cases m
    · rfl
    · exact absurd rfl hm
    · rfl
  | cons c cs ih =>
    intro m d m' d' h hm
    simp only [run] at h
    cases hst : step (m, d) c with
    | none => rw [hst] at h; simp at h
    | some q =>
      rw [hst] at h
      obtain ⟨qm, qd⟩ := q
      obtain ⟨h1, h2⟩ := ih h hm
      cases m with
      | text =>
        simp only [step] at hst
        by_cases hb : c = '\\'
        · rw [if_pos hb] at hst
          simp only [Option.some.injEq, Prod.mk.injEq] at hst
          obtain ⟨rfl, rfl⟩ := hst
          subst hb
          refine ⟨fun r => ?_, by simp [h2]⟩
          simpa [texDepth, Mode.isEsc] using h1 r
        rw [if_neg hb] at hst
        by_cases ho : c = '{'
        · rw [if_pos ho] at hst
          simp only [Option.some.injEq, Prod.mk.injEq] at hst
          obtain ⟨rfl, rfl⟩ := hst
          subst ho
          refine ⟨fun r => ?_, by simp [h2]⟩
          simpa [texDepth, Mode.isEsc] using h1 r
        rw [if_neg ho] at hst
        by_cases hcl : c = '}'
        · rw [if_pos hcl] at hst
          subst hcl
          cases d with
          | zero => simp at hst
          | succ e =>
            simp only [Option.some.injEq, Prod.mk.injEq] at hst
            obtain ⟨rfl, rfl⟩ := hst
            refine ⟨fun r => ?_, by simp [h2]⟩
            simpa [texDepth, Mode.isEsc] using h1 r
        rw [if_neg hcl] at hst
        by_cases hd : c = '$'
        · rw [if_pos hd] at hst; simp at hst
        rw [if_neg hd] at hst
        simp only [Option.some.injEq, Prod.mk.injEq] at hst
        obtain ⟨rfl, rfl⟩ := hst
        refine ⟨fun r => ?_, by simp [h2, Ne.symm hd]⟩
        simpa [texDepth, Mode.isEsc, hb, ho, hcl] using h1 r
      | esc =>
        have hd : c ≠ '$' := by
          rintro rfl
          simp [step] at hst
        have hq : qm ≠ .esc ∧ qd = d := by
          simp only [step] at hst
          by_cases ha : c.isAlpha ∨ c = '#' ∨ c = '%'
          · rw [if_pos ha] at hst
            simp only [Option.some.injEq, Prod.mk.injEq] at hst
            obtain ⟨rfl, rfl⟩ := hst
            simp
          rw [if_neg ha] at hst
          by_cases hp : c = ',' ∨ c = ';' ∨ c = ':'
          · rw [if_pos hp] at hst
            simp only [Option.some.injEq, Prod.mk.injEq] at hst
            obtain ⟨rfl, rfl⟩ := hst
            simp
          · rw [if_neg hp] at hst; simp at hst
        obtain ⟨hq1, rfl⟩ := hq
        refine ⟨fun r => ?_, by simp [h2, Ne.symm hd]⟩
        have := h1 r
        rw [show qm.isEsc = false by cases qm <;> simp_all [Mode.isEsc]] at this
        simpa [texDepth, Mode.isEsc] using this
      | punct =>
        simp only [step] at hst
        by_cases hs : c = ' '
        · rw [if_pos hs] at hst
          simp only [Option.some.injEq, Prod.mk.injEq] at hst
          obtain ⟨rfl, rfl⟩ := hst
          subst hs
          refine ⟨fun r => ?_, by simp [h2]⟩
          simpa [texDepth, Mode.isEsc] using h1 r
        · rw [if_neg hs] at hst; simp at hst

/-- concatenation of balanced pieces -/
def Piece (l : List Char) : Prop := (∀ d r, texDepth false d (l ++ r) = texDepth false d r) ∧ '$' ∉ l

theorem run_shift (k : Nat) : ∀ (l : List Char) (m : Mode) (d : Nat) (m' : Mode) (d' : Nat), run (m, d) l = some (m', d') →
    run (m, d + k) l = some (m', d' + k) := by
  intro l
  induction l with
  | nil => intro m d m' d' h; simp [run] at h ⊢; omega
  | cons c cs ih =>
    intro m d m' d' h
    simp only [run] at h ⊢
    cases hst : step (m, d) c with
    | none => rw [hst] at h; simp at h
    | some q =>
      rw [hst] at h
      obtain ⟨qm, qd⟩ := q
      have hk : step (m, d + k) c = some (qm, qd + k) := by
        cases m with
        | text =>
          simp only [step] at hst ⊢
          split_ifs at hst ⊢ <;> simp_all
          · omega
          · cases d with
            | zero => simp at hst
            | succ e =>
              simp only [Option.some.injEq, Prod.mk.injEq] at hst
              rw [show e + 1 + k = (e + k) + 1 by omega]
              simp [hst.1, ← hst.2]
        | esc =>
          simp only [step] at hst ⊢
          split_ifs at hst ⊢ <;> simp_all
        | punct =>
          simp only [step] at hst ⊢
          split_ifs at hst ⊢ <;> simp_all
      rw [hk]
      exact ih qm qd m' d' h

theorem acc_piece {l : List Char} (h : Acc l) : Piece l := by
  obtain ⟨m, hm, hr⟩ := h
  refine ⟨fun d r => ?_, (run_depth hr hm).2⟩
  have := (run_depth (run_shift d l _ _ _ _ hr) hm).1 r
  rw [Nat.zero_add] at this
  exact this

theorem Piece.append {l l' : List Char} (h : Piece l) (h' : Piece l') : Piece (l ++ l') :=
  ⟨fun d r => by rw [List.append_assoc, h.1, h'.1], by simp [h.2, h'.2]⟩

theorem Piece.balanced {l : List Char} (h : Piece l) : Balanced l := by
  have := h.1 0 []
  rw [List.append_nil] at this
  rw [Balanced, this]
  rfl

/-! ### The text before the clean-up -/

/-- a text the scanner passes without change of state -/
def Neutral (v : List Char) : Prop := ∀ d, run (.text, d) v = some (.text, d)

theorem neutral_of_run {v : List Char} (h : run (.text, 0) v = some (.text, 0)) : Neutral v := fun d => by
  simpa using run_shift d v _ _ _ _ h

theorem Neutral.append {v w : List Char} (hv : Neutral v) (hw : Neutral w) : Neutral (v ++ w) := fun d => by
  rw [run_append, hv d]; exact hw d

theorem neutral_plain {l : List Char} (h : ∀ c ∈ l, c ≠ '{' ∧ c ≠ '}' ∧ c ≠ '\\' ∧ c ≠ '$') : Neutral l := by
  intro d
  induction l with
  | nil => rfl
  | cons c cs ih =>
    obtain ⟨h1, h2, h3, h4⟩ := h c List.mem_cons_self
    simp only [run, step, if_neg h3, if_neg h1, if_neg h2, if_neg h4]
    exact ih (fun c hc => h c (List.mem_cons_of_mem _ hc))

theorem mem_repl_empty {old : List Char} {c : Char} : ∀ (l : List Char) (k : Nat), c ∈ replGo old [] k l → c ∈ l := by
  intro l
  induction l with
  | nil => intro k h; cases k <;> simp [replGo] at h
  | cons a cs ih =>
    intro k h
    cases k with
    | succ k => exact List.mem_cons_of_mem _ (ih k h)
    | zero =>
      simp only [replGo] at h
      split_ifs at h with hp
      · rw [List.nil_append] at h
        exact List.mem_cons_of_mem _ (ih _ h)
      · rcases List.mem_cons.mp h with rfl | h
        · exact List.mem_cons_self
        · exact List.mem_cons_of_mem _ (ih _ h)

theorem plain_noErr {m : String} (h : Plain m) : Plain (noErr m) := by
  intro c hc
  rw [noErr, toList_repl] at hc
  exact h c (mem_repl_empty m.toList 0 hc)

theorem neutral_lookup {tab : List (String × String)} (ht : ∀ a ∈ tab, run (.text, 0) a.2.toList = some (.text, 0)) {k : String}
    (hk : Plain k) : Neutral ((tab.lookup k).getD k).toList := by
  cases h : tab.lookup k with
  | none => exact neutral_plain hk
  | some v =>
    have : ∃ a ∈ tab, a.2 = v := by
      clear ht
      induction tab with
      | nil => simp at h
      | cons a tab ih =>
        obtain ⟨x, y⟩ := a
        rw [List.lookup_cons] at h
        by_cases hx : k == x
        · rw [hx] at h
          simp only [Option.some.injEq] at h
          exact ⟨(x, y), List.mem_cons_self, h⟩
        · rw [show (k == x) = false by simpa using hx] at h
          obtain ⟨a, ha, hv⟩ := ih h
          exact ⟨a, List.mem_cons_of_mem _ ha, hv⟩
    obtain ⟨a, ha, rfl⟩ := this
    exact neutral_of_run (ht a ha)

theorem tables_ok : (∀ a ∈ transMeasurement, run (.text, 0) a.2.toList = some (.text, 0)) ∧
    (∀ a ∈ transComponent, run (.text, 0) a.2.toList = some (.text, 0)) ∧ (∀ a ∈ alts, run (.text, 0) a.2 = some (.text, 0)) := by
  refine ⟨?_, ?_, ?_⟩ <;> decide +kernel

theorem neutral_subst : ∀ (l : List Char) (k : Nat), (∀ c ∈ l, c ≠ '{' ∧ c ≠ '}' ∧ c ≠ '\\' ∧ c ≠ '$') → Neutral (substGo alts k l) := by
  intro l
  induction l with
  | nil => intro k _ d; cases k <;> rfl
  | cons c cs ih =>
    intro k h
    have ht := fun c hc => h c (List.mem_cons_of_mem _ hc)
    cases k with
    | succ k => exact ih k ht
    | zero =>
      simp only [substGo]
      cases hf : alts.find? (fun a => a.1.isPrefixOf (c :: cs)) with
      | none => exact (neutral_plain (l := [c]) (by simpa using h c List.mem_cons_self)).append (ih 0 ht)
      | some a => exact (neutral_of_run (tables_ok.2.2 a (List.mem_of_find?_eq_some hf))).append (ih _ ht)

theorem neutral_species {s : String} (h : Plain s) : Neutral (makeSpecies s).toList := by
  rw [makeSpecies_toList]
  exact neutral_subst _ 0 h

/-- placeholders: `1` for every value -/
def dummy (d : List (List Char × List Char)) : List (List Char × List Char) := d.map (fun a => (a.1, ['1']))

theorem lookup_dummy (d : List (List Char × List Char)) (k : List Char) : (dummy d).lookup k = (d.lookup k).map (fun _ => ['1']) := by
  induction d with
  | nil => rfl
  | cons a d ih =>
    obtain ⟨x, y⟩ := a
    simp only [dummy, List.map_cons, List.lookup_cons]
    by_cases hx : k == x
    · simp [hx]
    · rw [show (k == x) = false by simpa using hx]
      exact ih

theorem lookup_mem {d : List (List Char × List Char)} {k v : List Char} (h : d.lookup k = some v) : ∃ a ∈ d, a.2 = v := by
  induction d with
  | nil => simp at h
  | cons a d ih =>
    obtain ⟨x, y⟩ := a
    rw [List.lookup_cons] at h
    by_cases hx : k == x
    · rw [hx] at h
      simp only [Option.some.injEq] at h
      exact ⟨(x, y), List.mem_cons_self, h⟩
    · rw [show (k == x) = false by simpa using hx] at h
      obtain ⟨a, ha, hv⟩ := ih h
      exact ⟨a, List.mem_cons_of_mem _ ha, hv⟩

theorem run_fill (d : List (List Char × List Char)) (hd : ∀ a ∈ d, Neutral a.2) : ∀ (t : List Char) (k : Nat) q r,
    run q (fillGo (dummy d) k t) = some r → run q (fillGo d k t) = some r := by
  intro t
  induction t with
  | nil => intro k q r h; cases k <;> simpa [fillGo] using h
  | cons c cs ih =>
    intro k q r h
    cases k with
    | succ k => exact ih k q r h
    | zero =>
      have hcons : ∀ q r, run q (c :: fillGo (dummy d) 0 cs) = some r → run q (c :: fillGo d 0 cs) = some r := by
        intro q r h
        simp only [run] at h ⊢
        cases hst : step q c with
        | none => rw [hst] at h; simp at h
        | some q' => rw [hst] at h; exact ih 0 q' r h
      simp only [fillGo] at h ⊢
      by_cases hc : c = '$'
      · rw [if_pos hc] at h ⊢
        rw [lookup_dummy] at h
        cases hl : d.lookup (cs.takeWhile isId) with
        | none => rw [hl] at h; exact hcons q r h
        | some v =>
          rw [hl] at h
          simp only [Option.map_some, List.cons_append, List.nil_append, run] at h
          obtain ⟨a, ha, rfl⟩ := lookup_mem hl
          obtain ⟨m, e⟩ := q
          cases m with
          | text =>
            rw [show step (Mode.text, e) '1' = some (Mode.text, e) from rfl] at h
            simp only [] at h ⊢
            rw [run_append, hd a ha e]
            exact ih _ _ r h
          | esc => rw [show step (Mode.esc, e) '1' = none by simp [step]] at h; simp at h
          | punct => rw [show step (Mode.punct, e) '1' = none by simp [step]] at h; simp at h
      · rw [if_neg hc] at h ⊢
        exact hcons q r h

theorem templates_ok : ∀ t ∈ defaultTemplate :: templates.map Prod.snd,
    run (.text, 0) (fillGo [(['M'], ['1']), (['C'], ['1']), (['S'], ['1'])] 0 t.toList) = some (.text, 0) := by decide +kernel

theorem templateOf_mem (m : String) : templateOf m ∈ defaultTemplate :: templates.map Prod.snd := by
  unfold templateOf
  cases h : templates.lookup m with
  | none => exact List.mem_cons_self
  | some v =>
    refine List.mem_cons_of_mem _ ?_
    generalize templates = tab at h
    induction tab with
    | nil => simp at h
    | cons a tab ih =>
      obtain ⟨x, y⟩ := a
      rw [List.lookup_cons] at h
      by_cases hx : m == x
      · rw [hx] at h
        simp only [Option.some.injEq] at h
        subst h
        simp
      · rw [show (m == x) = false by simpa using hx] at h
        exact List.mem_cons_of_mem _ (ih h)

theorem acc_oneTex {x : MCS} (hm : Plain x.m) (hc : Plain x.c) (hs : Plain x.s) : Acc (oneTex x).toList := by
  unfold oneTex
  rw [String.toList_ofList]
  refine acc_clean ?_
  have hf := run_fill [(['M'], (measText (noErr x.m)).toList), (['C'], (compText x.c).toList), (['S'], (makeSpecies x.s).toList)] (by
    intro a ha
    simp only [List.mem_cons, List.not_mem_nil, or_false] at ha
    rcases ha with rfl | rfl | rfl
    · exact neutral_lookup tables_ok.1 (plain_noErr hm)
    · exact neutral_lookup tables_ok.2.1 hc
    · exact neutral_species hs) (templateOf (noErr x.m)).toList 0 _ _ (templates_ok _ (templateOf_mem _))
  refine ⟨.text, by decide, ?_⟩
  unfold rawTexL
  cases isErr x.m with
  | false => exact hf
  | true =>
    simp only [if_true]
    rw [run_append, run_append, show run (.text, 0) "\\sigma(".toList = some (.text, 0) by decide +kernel]
    simp only [Option.bind_some]
    rw [hf]
    rfl

theorem units_ok : ∀ a ∈ transUnits, run (.text, 0) a.2.toList = some (.text, 0) := by decide +kernel

theorem piece_run {l : List Char} (h : run (.text, 0) l = some (.text, 0)) : Piece l := acc_piece ⟨.text, by decide, h⟩

theorem piece_units (k : String) : Piece (unitsOf k).toList := by
  unfold unitsOf
  cases h : transUnits.lookup k with
  | none => exact piece_run (by decide +kernel)
  | some v =>
    refine piece_run ?_
    have hok := units_ok
    generalize transUnits = tab at h hok
    induction tab with
    | nil => simp at h
    | cons a tab ih =>
      obtain ⟨x, y⟩ := a
      rw [List.lookup_cons] at h
      by_cases hx : k == x
      · rw [hx] at h
        simp only [Option.some.injEq] at h
        subst h
        exact hok (x, y) List.mem_cons_self
      · rw [show (k == x) = false by simpa using hx] at h
        exact ih h (fun a ha => hok a (List.mem_cons_of_mem _ ha))

theorem piece_labelUnits (x : MCS) (y : Option MCS) (k : Option String) : Piece (labelUnits x y k).toList := by
  unfold labelUnits
  by_cases hk : k.isSome
  · rw [if_pos hk]; exact piece_run (by decide +kernel)
  rw [if_neg hk]
  unfold rawUnits
  cases y with
  | none =>
    simp only [oneUnits]
    split_ifs <;> exact piece_units _
  | some y =>
    simp only []
    split_ifs
    · exact piece_run (by decide +kernel)
    · rw [String.toList_append, String.toList_append]
      exact ((piece_units _).append (piece_run (by decide +kernel))).append (piece_units _)

theorem piece_labelTex {x : MCS} {y : Option MCS} (hx : Plain x.m ∧ Plain x.c ∧ Plain x.s)
    (hy : ∀ z, y = some z → Plain z.m ∧ Plain z.c ∧ Plain z.s) (k : Option String) : Piece (labelTex x y k).toList := by
  have ht : Piece (ratioTex x y).toList := by
    unfold ratioTex
    cases y with
    | none => exact acc_piece (acc_oneTex hx.1 hx.2.1 hx.2.2)
    | some z =>
      obtain ⟨h1, h2, h3⟩ := hy z rfl
      simp only []
      rw [String.toList_append, String.toList_append]
      exact ((acc_piece (acc_oneTex hx.1 hx.2.1 hx.2.2)).append (piece_run (by decide +kernel))).append (acc_piece (acc_oneTex h1 h2 h3))
  unfold labelTex
  cases k with
  | none => exact ht
  | some k =>
    simp only []
    rw [String.toList_append]
    refine Piece.append ?_ ht
    have hk : axnormText k = "Col." ∨ axnormText k = "Row" ∨ axnormText k = "Total" ∨ axnormText k = "Density" ∨ axnormText k = "" := by
      unfold axnormText
      split_ifs <;> simp
    rcases hk with h | h | h | h | h <;> rw [h] <;> exact piece_run (by decide +kernel)

/-- **C197** Whatever the (plain) measurement, component and species of numerator and denominator, the normalisation, the place of the
units and the description: the text shown is the description, if any, and a formula `$…$` (two of them if the units go to a new line);
inside a formula there is no dollar and every LaTeX group that is opened is closed.  So is it in `tex`. -/
theorem C197_balanced (x : MCS) (y : Option MCS) (k d : Option String) (newLine : Bool) (o : Obj)
    (hx : Plain x.m ∧ Plain x.c ∧ Plain x.s) (hy : ∀ z, y = some z → Plain z.m ∧ Plain z.c ∧ Plain z.s)
    (ho : mkTeXlabel x y k newLine d = .ok o) :
    (∃ a b : String, o.str = withDescription d (if newLine then "$" ++ a ++ "$\n$" ++ b ++ "$" else "$" ++ (a ++ b) ++ "$") ∧
      Balanced a.toList ∧ Balanced b.toList ∧ Balanced (a ++ b).toList ∧ '$' ∉ a.toList ∧ '$' ∉ b.toList) ∧
    (∀ k', Balanced (labelTex x y k').toList) := by
  refine ⟨?_, fun k' => (piece_labelTex hx hy k').balanced⟩
  unfold mkTeXlabel at ho
  cases hk : setAxnorm k with
  | error e => rw [hk] at ho; simp [bind, Except.bind] at ho
  | ok k' =>
    rw [hk] at ho
    simp only [bind, Except.bind, Except.ok.injEq] at ho
    subst ho
    have ht := piece_labelTex hx hy k'
    have hu := piece_labelUnits x y k'
    cases newLine with
    | true =>
      refine ⟨labelTex x y k' ++ " ", " \\left[" ++ labelUnits x y k' ++ "\\right]", ?_, ?_⟩
      · simp only [mkTeX, Obj.str, Option.getD_some, labelText, if_true]
        simp [String.append_assoc]
        rfl
      · have hA : Piece (labelTex x y k' ++ " ").toList := by
          rw [String.toList_append]; exact ht.append (piece_run (by decide +kernel))
        have hB : Piece (" \\left[" ++ labelUnits x y k' ++ "\\right]").toList := by
          rw [String.toList_append, String.toList_append]
          exact ((piece_run (by decide +kernel)).append hu).append (piece_run (by decide +kernel))
        refine ⟨hA.balanced, hB.balanced, ?_, hA.2, hB.2⟩
        rw [String.toList_append]
        exact (hA.append hB).balanced
    | false =>
      refine ⟨labelTex x y k' ++ " \\;", " \\left[" ++ labelUnits x y k' ++ "\\right]", ?_, ?_⟩
      · simp only [mkTeX, Obj.str, Option.getD_some, labelText]
        simp [String.append_assoc]
        rfl
      · have hA : Piece (labelTex x y k' ++ " \\;").toList := by
          rw [String.toList_append]; exact ht.append (acc_piece ⟨.punct, by decide, by decide +kernel⟩)
        have hB : Piece (" \\left[" ++ labelUnits x y k' ++ "\\right]").toList := by
          rw [String.toList_append, String.toList_append]
          exact ((piece_run (by decide +kernel)).append hu).append (piece_run (by decide +kernel))
        refine ⟨hA.balanced, hB.balanced, ?_, hA.2, hB.2⟩
        rw [String.toList_append]
        exact (hA.append hB).balanced

/-- **C197, violated for LaTeX in the texts** A component that ends in a thin space is itself balanced, but the clean-up turns its `\,}`
into `\}`: the group is never closed. -/
theorem C197_thin_space : Balanced "a\\,".toList ∧ labelTex ⟨"x", "a\\,", ""⟩ none none = "{x}_{{a\\}}" ∧
    ¬ Balanced (labelTex ⟨"x", "a\\,", ""⟩ none none).toList := by
  unfold Balanced
  refine ⟨?_, ?_, ?_⟩ <;> decide +kernel

example : Plain "v" ∧ Plain "x" ∧ Plain "p1" := by unfold Plain; decide +kernel
example : (mkTeXlabel ⟨"v", "x", "p1"⟩ (some ⟨"n_err", "", "a,He"⟩) (some "R") true (some "Speed")).toOption.map Obj.str =
    some "Speed\n$\\mathrm{Row \\; Norm} \\; {v}_{{X};{p_1}}/\\sigma(n_{\\alpha,\\mathrm{He}}) $\n$ \\left[\\#\\right]$" := by decide +kernel

end Labels
end SW
