import Verif.DocScripts
import Verif.Props.Scripts3

/-!
# C249-C251: provenance checks, documentation checks, `:no-index:`
-/

namespace SW
namespace DocS

open Scripts

/-! ### C249 -/

/-- a pattern without the characters dropped is found before and after dropping -/
theorem infix_dropWhile (P : Char → Bool) (p l : Txt) (hp : p ≠ []) (h : ∀ c ∈ p, P c = false) : p <:+: l.dropWhile P ↔ p <:+: l := by
  constructor
  · exact fun q => q.trans (List.dropWhile_suffix P).isInfix
  · intro q
    induction l with
    | nil => exact q
    | cons c l ih =>
      by_cases hc : P c = true
      · rw [List.dropWhile_cons_of_pos hc]
        apply ih
        rcases List.infix_cons_iff.mp q with q | q
        · exfalso
          cases p with
          | nil => exact hp rfl
          | cons a p =>
            obtain ⟨t, ht⟩ := q
            have : a = c := by simpa using congrArg List.head? ht
            rw [← this, h a (by simp)] at hc
            exact absurd hc (by simp)
        · exact q
      · rw [List.dropWhile_cons_of_neg hc]; exact q

theorem infix_reverse_iff (p l : Txt) : p.reverse <:+: l.reverse ↔ p <:+: l := List.reverse_infix

theorem infix_strip (p l : Txt) (hp : p ≠ []) (h : ∀ c ∈ p, isWs c = false) : p <:+: stripWs l ↔ p <:+: l := by
  unfold stripWs
  rw [← infix_reverse_iff p, List.reverse_reverse, infix_dropWhile isWs _ _ (by simpa using hp) (by simpa using h), infix_reverse_iff,
    infix_dropWhile isWs _ _ hp h]

def master : Txt := "master".toList

/-- a text without newline is found in a text iff it is found in one of its lines -/
theorem infix_split (p : Txt) (hn : '\n' ∉ p) (hp : p ≠ []) : ∀ s : Txt, p <:+: s ↔ ∃ l ∈ Chars.split '\n' s, p <:+: l := by
  intro s
  constructor
  · intro h
    induction s with
    | nil => exact absurd (List.eq_nil_of_infix_nil h) hp
    | cons c cs ih =>
      by_cases hc : c = '\n'
      · rw [Chars.split, if_pos hc]
        rcases List.infix_cons_iff.mp h with q | q
        · exfalso
          cases p with
          | nil => exact hp rfl
          | cons a p =>
            obtain ⟨t, ht⟩ := q
            have : a = c := by simpa using congrArg List.head? ht
            exact hn (by rw [← hc, ← this]; exact List.mem_cons_self)
        · obtain ⟨l, hl, hq⟩ := ih q
          exact ⟨l, by simp [hl], hq⟩
      · rw [Chars.split, if_neg hc]
        cases hs : Chars.split '\n' cs with
        | nil => exact absurd hs (Chars.split_ne_nil _ _)
        | cons y ys =>
          simp only []
          have hj := Chars.join_split '\n' cs
          rw [hs] at hj
          rcases List.infix_cons_iff.mp h with q | q
          · refine ⟨c :: y, by simp, ?_⟩
            have : p <+: c :: y := by
              cases ys with
              | nil => rw [Chars.join] at hj; rw [hj]; exact q
              | cons z zs =>
                rw [Chars.join] at hj
                rw [← hj, ← List.cons_append] at q
                by_cases hlen : p.length ≤ (c :: y).length
                · exact List.prefix_of_prefix_length_le q (List.prefix_append _ _) hlen
                · push Not at hlen
                  exfalso
                  apply hn
                  obtain ⟨t, ht⟩ := q
                  have h1 : (p ++ t)[(c :: y).length]? = some '\n' := by rw [ht]; simp
                  rw [List.getElem?_append_left hlen] at h1
                  exact List.mem_of_getElem? h1
            exact this.isInfix
          · obtain ⟨l, hl, hq⟩ := ih q
            rw [hs] at hl
            rcases List.mem_cons.mp hl with rfl | hl
            · exact ⟨c :: l, by simp, hq.trans (List.suffix_cons _ _).isInfix⟩
            · exact ⟨l, by simp [hl], hq⟩
  · rintro ⟨l, hl, hq⟩
    refine hq.trans ?_
    clear hq
    have hj := Chars.join_split '\n' s
    generalize Chars.split '\n' s = ls at hl hj
    rw [← hj]
    clear hj
    induction ls with
    | nil => simp at hl
    | cons y ys ih =>
      cases ys with
      | nil =>
        obtain rfl : l = y := by simpa using hl
        rw [Chars.join]
      | cons z zs =>
        rw [Chars.join]
        rcases List.mem_cons.mp hl with rfl | hl
        · exact (List.prefix_append _ _).isInfix
        · exact (ih hl).trans ⟨y ++ ['\n'], [], by simp⟩

theorem master_ne : master ≠ [] := by decide

theorem any_master (out : Txt) : (branches out).any mentionsMaster = true ↔ master <:+: out := by
  have hm : ∀ c ∈ master, isWs c = false := by decide +kernel
  have hm2 : ∀ c ∈ master, (c == '*' || c == ' ') = false := by decide +kernel
  have hl : ∀ b, mentionsMaster ((stripWs b).dropWhile (fun c => c == '*' || c == ' ')) = true ↔ master <:+: b := by
    intro b
    unfold mentionsMaster
    rw [splitFirst_isSome]
    exact (infix_dropWhile _ master _ master_ne hm2).trans (infix_strip master b master_ne hm)
  rw [← infix_strip master out master_ne hm, infix_split master (by decide +kernel) master_ne]
  unfold branches
  rw [List.any_map, List.any_filter, List.any_eq_true]
  constructor
  · rintro ⟨b, hb, h⟩
    rw [Bool.and_eq_true] at h
    exact ⟨b, hb, (hl b).mp h.2⟩
  · rintro ⟨b, hb, h⟩
    refine ⟨b, hb, ?_⟩
    rw [Bool.and_eq_true]
    refine ⟨?_, (hl b).mpr h⟩
    simp only [ne_eq, decide_not, Bool.not_eq_true', decide_eq_false_iff_not]
    intro h0
    have := (infix_strip master b master_ne hm).mpr h
    rw [h0] at this
    exact master_ne (List.eq_nil_of_infix_nil this)

theorem branches_nil (out : Txt) : branches out = [] ↔ stripWs out = [] := by
  unfold branches
  rw [List.map_eq_nil_iff, List.filter_eq_nil_iff]
  simp only [ne_eq, decide_not, Bool.not_eq_true', decide_eq_false_iff_not, not_not]
  constructor
  · intro h
    obtain ⟨w1, w2, a1, a2, hd, ht⟩ := strip_decomp out
    cases hs : stripWs out with
    | nil => rfl
    | cons c s =>
      exfalso
      have hc : isWs c = false := ht.1 c (by rw [hs]; rfl)
      have hcn : c ≠ '\n' := by rintro rfl; exact absurd hc (by decide +kernel)
      obtain ⟨l, hl, hq⟩ := (infix_split [c] (by simpa using Ne.symm hcn) (by simp) (stripWs out)).mp (by rw [hs]; exact ⟨[], s, by simp⟩)
      have h1 := h l hl
      have := (infix_strip [c] l (by simp) (by simpa using hc)).mpr hq
      rw [h1] at this
      exact absurd (List.eq_nil_of_infix_nil this) (by simp)
  · intro h l hl
    rw [h] at hl
    have : l = [] := by simpa [Chars.split] using hl
    rw [this]; rfl

/-- Specification: a command that could be run wrote this. -/
def Wrote (r : Ran) (out : Txt) : Prop := ∃ code, r = .done code out

/-- C249: the provenance of a tag is confirmed iff git lists the tag, resolves it and could be asked for branches and message, and - if master is
required and git lists branches - the list mentions `master`.  Then the commit is what git resolved. -/
theorem C249_tag (g : Git) (req : Bool) :
    ((verifyTag g req).1 = true ↔
      (∃ t, Wrote g.tag t ∧ stripWs t ≠ []) ∧ (∃ r, g.rev = .done 0 r) ∧ (∃ s, Wrote g.subject s) ∧
      ∃ code bs, g.contains = .done code bs ∧ (req = true → code = 0 → stripWs bs ≠ [] → master <:+: bs)) ∧
    (∀ c, verifyTag g req = (true, c) → ∃ r, g.rev = .done 0 r ∧ c = some (stripWs r)) ∧
    (∀ c, verifyTag g req = (false, some c) → req = true ∧ ∃ bs, g.contains = .done 0 bs ∧ stripWs bs ≠ [] ∧ ¬ master <:+: bs) := by
  obtain ⟨tag, rev, con, sub⟩ := g
  unfold verifyTag Wrote
  cases tag with
  | failed => simp
  | done tc t =>
    by_cases ht : stripWs t = []
    · simp [ht]
    · cases rev with
      | failed => simp [ht]
      | done rc r =>
        by_cases hr : rc = 0
        · subst hr
          cases con with
          | failed => simp [ht]
          | done cc bs =>
            have key : (decide (cc = 0) && !(branches bs).isEmpty && !(branches bs).any mentionsMaster && req) = true ↔
                cc = 0 ∧ stripWs bs ≠ [] ∧ ¬ master <:+: bs ∧ req = true := by
              have e1 : (!(branches bs).isEmpty) = true ↔ stripWs bs ≠ [] := by
                rw [Bool.not_eq_true', List.isEmpty_eq_false_iff, ne_eq, branches_nil]
              have e2 : (!(branches bs).any mentionsMaster) = true ↔ ¬ master <:+: bs := by
                rw [Bool.not_eq_true', ← Bool.not_eq_true, any_master]
              simp only [Bool.and_eq_true, decide_eq_true_eq]
              rw [e1, e2]
              tauto
            simp only [ne_eq, ht, not_false_eq_true, not_true, if_false]
            by_cases hk : cc = 0 ∧ stripWs bs ≠ [] ∧ ¬ master <:+: bs ∧ req = true
            · rw [if_pos (key.mpr hk)]
              obtain ⟨k1, k2, k3, k4⟩ := hk
              refine ⟨?_, by simp, fun c _ => ⟨k4, bs, by rw [k1], k2, k3⟩⟩
              constructor
              · intro h; simp at h
              · rintro ⟨_, _, _, code, bs', e, h⟩
                cases e
                exact absurd (h k4 k1 k2) k3
            · rw [if_neg (fun h => hk (key.mp h))]
              cases sub with
              | failed => simp
              | done sc s =>
                refine ⟨?_, ?_, by simp⟩
                · refine ⟨fun _ => ⟨⟨t, ⟨tc, rfl⟩, ht⟩, ⟨r, rfl⟩, ⟨s, sc, rfl⟩, cc, bs, rfl, ?_⟩, fun _ => rfl⟩
                  intro a b c
                  by_contra hm
                  exact hk ⟨b, c, hm, a⟩
                · intro c h
                  simp only [Prod.mk.injEq, true_and] at h
                  exact ⟨r, rfl, h.symm⟩
        · simp [ht, hr]

/-- C249, violated: required or not, a tag passes although no branch is master's: one that only contains the word, no branch at all, or branches
that git could not list. -/
theorem C249_not_master (t r s : Txt) (a b : Nat) (ht : stripWs t ≠ []) (code : Nat) (bs : Txt)
    (h : code ≠ 0 ∨ stripWs bs = [] ∨ ∃ x y, bs = x ++ master ++ y) :
    verifyTag ⟨.done a t, .done 0 r, .done code bs, .done b s⟩ true = (true, some (stripWs r)) := by
  have h1 : (verifyTag ⟨.done a t, .done 0 r, .done code bs, .done b s⟩ true).1 = true := by
    rw [(C249_tag _ _).1]
    refine ⟨⟨t, ⟨a, rfl⟩, ht⟩, ⟨r, rfl⟩, ⟨s, b, rfl⟩, code, bs, rfl, ?_⟩
    intro _ h0 h2
    rcases h with h | h | ⟨x, y, h⟩
    · exact absurd h0 h
    · exact absurd h h2
    · exact ⟨x, y, h.symm⟩
  obtain ⟨c, hc⟩ : ∃ c, verifyTag ⟨.done a t, .done 0 r, .done code bs, .done b s⟩ true = (true, c) := ⟨_, Prod.ext h1 rfl⟩
  obtain ⟨r', e, rfl⟩ := (C249_tag _ _).2.1 c hc
  cases e
  exact hc

/-- Non-trivial: `webmaster` passes for master. -/
example : verifyTag ⟨.done 0 "v1.0.0\n".toList, .done 0 "ab12\n".toList, .done 0 "* webmaster\n  dev\n".toList, .done 0 [' ']⟩ true = (true, some "ab12".toList) ∧
    verifyTag ⟨.done 0 "v1.0.0\n".toList, .done 0 "ab12\n".toList, .done 0 "* dev\n".toList, .done 0 [' ']⟩ true = (false, some "ab12".toList) := by
  decide +kernel

/-- Specification: the first archive of a release. -/
def FirstArchive (l : List (Txt × Digest)) (n : Txt) (d : Digest) : Prop :=
  ∃ a b, l = a ++ (n, d) :: b ∧ ".tar.gz".toList <:+ n ∧ ∀ p ∈ a, ¬ ".tar.gz".toList <:+ p.1

/-- C249: the GitHub release is said to differ from PyPI's archive iff it could be read, has an archive, and the digest given for the first one -
`sha256:` and the hash, or the hash alone - is not the hash; a missing digest counts as different.  Violated: a digest that is null, an unreadable release
and a second archive count as equal. -/
theorem C249_release (a : Assets) (sha : Txt) (hs : sha ≠ []) :
    releaseMatches a sha = false ↔ ∃ l, a = .list l ∧ ∃ n d, FirstArchive l n d ∧
      (d = .absent ∨ ∃ t, d = .text t ∧ t ≠ "sha256:".toList ++ sha ∧ (t ≠ sha ∨ "sha256:".toList <+: sha)) := by
  unfold releaseMatches FirstArchive
  cases a with
  | unusable => simp
  | list l =>
    simp only [Assets.list.injEq, exists_eq_left']
    have hash : ∀ t, plainHash t = sha ↔ t = "sha256:".toList ++ sha ∨ (t = sha ∧ ¬ "sha256:".toList <+: sha) := by
      intro t
      unfold plainHash
      by_cases hp : "sha256:".toList.isPrefixOf t = true
      · rw [if_pos hp]
        rw [List.isPrefixOf_iff_prefix] at hp
        obtain ⟨u, rfl⟩ := hp
        have e : ("sha256:".toList ++ u).drop 7 = u := rfl
        rw [e]
        constructor
        · rintro rfl; exact Or.inl rfl
        · rintro (h | ⟨h, h2⟩)
          · exact List.append_cancel_left h
          · exact absurd ⟨u, h⟩ h2
      · rw [if_neg hp]
        rw [List.isPrefixOf_iff_prefix] at hp
        constructor
        · rintro rfl; exact Or.inr ⟨rfl, hp⟩
        · rintro (rfl | ⟨h, _⟩)
          · exact absurd (List.prefix_append _ _) hp
          · exact h
    have first : ∀ n d rest, l.filter (fun p => ".tar.gz".toList.isSuffixOf p.1) = (n, d) :: rest →
        ∀ n' d', (∃ a b, l = a ++ (n', d') :: b ∧ ".tar.gz".toList <:+ n' ∧ ∀ p ∈ a, ¬ ".tar.gz".toList <:+ p.1) ↔ n' = n ∧ d' = d := by
      intro n d rest hf n' d'
      constructor
      · rintro ⟨a, b, e, h1, h2⟩
        rw [e, List.filter_append, List.filter_cons_of_pos (by simpa [List.isSuffixOf_iff_suffix] using h1),
          List.filter_eq_nil_iff.mpr (by intro p hp; rw [List.isSuffixOf_iff_suffix]; exact h2 p hp)] at hf
        simp only [List.nil_append, List.cons.injEq, Prod.mk.injEq] at hf
        exact hf.1
      · rintro ⟨rfl, rfl⟩
        obtain ⟨a, b, e, h1, h2, _⟩ := List.filter_eq_cons_iff.mp hf
        refine ⟨a, b, e, ?_, ?_⟩
        · simpa [List.isSuffixOf_iff_suffix] using h2
        · intro p hp
          have := h1 p hp
          rwa [List.isSuffixOf_iff_suffix] at this
    cases hf : l.filter (fun p => ".tar.gz".toList.isSuffixOf p.1) with
    | nil =>
      simp only [Bool.true_eq_false, false_iff]
      rintro ⟨n, d, ⟨a, b, e, h1, _⟩, _⟩
      have := List.filter_eq_nil_iff.mp hf (n, d) (by rw [e]; simp)
      rw [List.isSuffixOf_iff_suffix] at this
      exact this h1
    | cons p rest =>
      obtain ⟨n, d⟩ := p
      have hfi := first n d rest hf
      constructor
      · intro h
        refine ⟨n, d, (hfi n d).mpr ⟨rfl, rfl⟩, ?_⟩
        cases d with
        | absent => exact Or.inl rfl
        | null => simp at h
        | text t =>
          refine Or.inr ⟨t, rfl, ?_⟩
          have h' : ¬ plainHash t = sha := by simpa using h
          rw [hash] at h'
          push Not at h'
          refine ⟨h'.1, ?_⟩
          by_cases e : t = sha
          · exact Or.inr (h'.2 e)
          · exact Or.inl e
      · rintro ⟨n', d', hfa, hd⟩
        obtain ⟨rfl, rfl⟩ := (hfi n' d').mp hfa
        rcases hd with rfl | ⟨t, rfl, h1, h2⟩
        · simp only [decide_eq_false_iff_not]
          intro e
          exact hs (by rw [← e]; rfl)
        · simp only [decide_eq_false_iff_not]
          rw [hash]
          rintro (h | ⟨h, h3⟩)
          · exact h1 h
          · rcases h2 with h2 | h2
            · exact h2 h
            · exact h3 h2

/-- Non-trivial: the first archive decides. -/
example : releaseMatches (.list [("notes.txt".toList, .absent), ("a.tar.gz".toList, .text "sha256:ab".toList), ("b.tar.gz".toList, .text "xx".toList)]) "ab".toList = true ∧
    releaseMatches (.list [("a.tar.gz".toList, .text "sha256:cd".toList)]) "ab".toList = false ∧
    releaseMatches (.list [("a.tar.gz".toList, .null)]) "ab".toList = true := by decide +kernel

/-! ### C250 -/

/-- Specification: the file can be imported and all its doctests pass. -/
def Fine (l : Loaded) : Prop := ∃ ts, l = .module ts ∧ ∀ t ∈ ts, t.examples ≠ 0 → ∃ a, t.result = some (a, 0)

/-- Specification: the doctest runner never raises and reports no more failures than attempts. -/
def Honest (l : Loaded) : Prop := ∀ ts, l = .module ts → ∀ t ∈ ts, ∃ a f, t.result = some (a, f) ∧ f ≤ a

/-- Specification: what is counted of one test -/
def triedOf (t : Test) : Nat := if t.examples = 0 then 0 else (t.result.getD (0, 0)).1
def failedOf (t : Test) : Nat := if t.examples = 0 then 0 else (t.result.getD (0, 0)).2

theorem runTests_ok (ts : List Test) (h : ∀ t ∈ ts, ∃ a f, t.result = some (a, f) ∧ f ≤ a) : ∀ r : Res,
    runTests ts r = (.ok ⟨r.attempted + (ts.map triedOf).sum, r.failed + (ts.map failedOf).sum, r.examples + (ts.map Test.examples).sum, r.success⟩,
      ⟨r.attempted + (ts.map triedOf).sum, r.failed + (ts.map failedOf).sum, r.examples + (ts.map Test.examples).sum, r.success⟩) := by
  induction ts with
  | nil => intro r; simp [runTests]
  | cons t ts ih =>
    intro r
    obtain ⟨a, f, hr, _⟩ := h t (by simp)
    have ih' := ih (fun x hx => h x (by simp [hx]))
    rw [runTests]
    by_cases he : t.examples = 0
    · rw [if_pos he, ih']
      simp [triedOf, failedOf, he]
    · rw [if_neg he, hr]
      simp only []
      rw [ih']
      simp [triedOf, failedOf, he, hr, Nat.add_assoc]

theorem failed_le_tried (ts : List Test) (h : ∀ t ∈ ts, ∃ a f, t.result = some (a, f) ∧ f ≤ a) : (ts.map failedOf).sum ≤ (ts.map triedOf).sum := by
  induction ts with
  | nil => simp
  | cons t ts ih =>
    obtain ⟨a, f, hr, hle⟩ := h t (by simp)
    have := ih (fun x hx => h x (by simp [hx]))
    have h1 : failedOf t ≤ triedOf t := by
      unfold failedOf triedOf
      split
      · exact le_refl _
      · rw [hr]; exact hle
    simp only [List.map_cons, List.sum_cons]
    omega

theorem sum_eq_zero_iff (l : List Nat) : l.sum = 0 ↔ ∀ x ∈ l, x = 0 := by
  induction l with
  | nil => simp
  | cons a l ih => simp [ih]

/-- C250: a file's result: attempts, failures and examples are the sums over its doctests, none if it cannot be imported; success iff it can be
imported and no doctest fails. -/
theorem C250_file (l : Loaded) (h : Honest l) :
    ((runFile l).success = true ↔ Fine l) ∧
    (∀ ts, l = .module ts → (runFile l).attempted = (ts.map triedOf).sum ∧ (runFile l).failed = (ts.map failedOf).sum ∧
      (runFile l).examples = (ts.map Test.examples).sum) ∧
    ((∀ ts, l ≠ .module ts) → (runFile l).attempted = 0 ∧ (runFile l).failed = 0 ∧ (runFile l).examples = 0) := by
  unfold Fine
  cases l with
  | noLoader => simp [runFile]
  | importError => simp [runFile]
  | module ts =>
    have h' := h ts rfl
    have hr := runTests_ok ts h' ⟨0, 0, 0, true⟩
    have hle := failed_le_tried ts h'
    have hrf : runFile (.module ts) = ⟨(ts.map triedOf).sum, (ts.map failedOf).sum, (ts.map Test.examples).sum,
        (ts.map failedOf).sum == 0 || (ts.map triedOf).sum == 0⟩ := by
      show (match runTests ts ⟨0, 0, 0, true⟩ with
        | (.ok r, _) => ({ r with success := r.failed == 0 || r.attempted == 0 } : Res)
        | (.error _, r) => { r with success := false }) = _
      rw [hr]
      simp
    rw [hrf]
    simp only [Loaded.module.injEq, exists_eq_left', Bool.or_eq_true, beq_iff_eq]
    refine ⟨?_, by rintro ts' rfl; simp, by intro hh; exact absurd rfl (hh ts)⟩
    constructor
    · intro hs t ht he
      have h0 : (ts.map failedOf).sum = 0 := by omega
      have := (sum_eq_zero_iff _).mp h0 (failedOf t) (List.mem_map_of_mem ht)
      obtain ⟨a, f, e, _⟩ := h' t ht
      unfold failedOf at this
      rw [if_neg he, e] at this
      exact ⟨a, by rw [e]; simpa using this⟩
    · intro hh
      left
      rw [sum_eq_zero_iff]
      intro x hx
      obtain ⟨t, ht, rfl⟩ := List.mem_map.mp hx
      unfold failedOf
      split
      · rfl
      · obtain ⟨a, e⟩ := hh t ht (by assumption)
        rw [e]; rfl

theorem foldl_add (fs : List (Txt × Loaded)) : ∀ t : Totals, fs.foldl (fun t f => t.add (runFile f.2)) t =
    ⟨t.files + fs.length, t.tests + (fs.map fun f => (runFile f.2).attempted).sum, t.failed + (fs.map fun f => (runFile f.2).failed).sum,
      t.examples + (fs.map fun f => (runFile f.2).examples).sum, t.results ++ fs.map fun f => runFile f.2⟩ := by
  induction fs with
  | nil => intro t; simp
  | cons f fs ih =>
    intro t
    rw [List.foldl_cons, ih]
    simp [Totals.add, Nat.add_assoc, Nat.add_comm, Nat.add_left_comm]

/-- C250: a run over a directory adds one result per file to what was there, and the script exits with 0 iff no doctest failed in a file that can be
imported - so, violated, files that cannot be imported do not make it fail. -/
theorem C250_directory (files : List (Txt × Loaded)) (t : Totals) (hh : ∀ f ∈ files, Honest f.2) :
    (runDirectory false files t).results = t.results ++ files.map (fun f => runFile f.2) ∧
    (runDirectory false files t).files = t.files + files.length ∧
    (runDirectory false files t).tests = t.tests + (files.map fun f => (runFile f.2).attempted).sum ∧
    (runnerExit (runDirectory false files Totals.zero) = 0 ↔ ∀ f ∈ files, ∀ ts, f.2 = .module ts → Fine f.2) ∧
    (runnerExit (runDirectory false files Totals.zero) = 0 ∨ runnerExit (runDirectory false files Totals.zero) = 1) := by
  have hd : runDirectory false files t = files.foldl (fun t f => t.add (runFile f.2)) t := rfl
  have hz : (runDirectory false files Totals.zero).failed = (files.map fun f => (runFile f.2).failed).sum := by
    show (files.foldl (fun t f => t.add (runFile f.2)) Totals.zero).failed = _
    rw [foldl_add]; simp [Totals.zero]
  rw [hd, foldl_add]
  refine ⟨rfl, rfl, rfl, ?_, ?_⟩
  · unfold runnerExit
    rw [hz]
    constructor
    · intro h f hf ts e
      have h0 : (files.map fun f => (runFile f.2).failed).sum = 0 := by
        by_contra hc
        rw [if_neg hc] at h
        exact absurd h (by simp)
      have h1 := (sum_eq_zero_iff _).mp h0 _ (List.mem_map_of_mem (f := fun f => (runFile f.2).failed) hf)
      obtain ⟨_, c2, _⟩ := C250_file f.2 (hh f hf)
      have h2 := (c2 ts e).2.1
      refine ⟨ts, e, ?_⟩
      intro t ht he
      have h1' : (runFile f.2).failed = 0 := h1
      rw [h1'] at h2
      have := (sum_eq_zero_iff _).mp h2.symm (failedOf t) (List.mem_map_of_mem ht)
      obtain ⟨a, f', e', _⟩ := hh f hf ts e t ht
      unfold failedOf at this
      rw [if_neg he, e'] at this
      exact ⟨a, by rw [e']; simpa using this⟩
    · intro h
      rw [if_pos]
      rw [sum_eq_zero_iff]
      intro x hx
      obtain ⟨f, hf, rfl⟩ := List.mem_map.mp hx
      obtain ⟨_, c2, c3⟩ := C250_file f.2 (hh f hf)
      by_cases hm : ∃ ts, f.2 = .module ts
      · obtain ⟨ts, e⟩ := hm
        obtain ⟨ts', e', ha⟩ := h f hf ts e
        rw [(c2 ts' e').2.1, sum_eq_zero_iff]
        intro y hy
        obtain ⟨t, ht, rfl⟩ := List.mem_map.mp hy
        unfold failedOf
        split
        · rfl
        · obtain ⟨a, e⟩ := ha t ht (by assumption)
          rw [e]; rfl
      · push Not at hm
        exact (c3 hm).2.1
  · unfold runnerExit
    split
    · exact Or.inl rfl
    · exact Or.inr rfl

/-- Specification: how many groups of directories a path is in -/
def groups (path : Txt) : Nat :=
  (if "core/".toList <:+: path ∨ "instabilities/".toList <:+: path then 1 else 0) +
  (if "plotting/".toList <:+: path ∨ "fitfunctions/".toList <:+: path then 1 else 0)

theorem mentions_iff (p path : Txt) : mentions p path = true ↔ p <:+: path := splitFirst_isSome p path

open Classical in
/-- C250: a targeted run: a file counts once for each group of directories it is in - violated: twice for `fitfunctions/core/…`, and not at all
elsewhere, `tools/` and `solar_activity/` included. -/
theorem C250_targeted (files : List (Txt × Loaded)) (t : Totals) :
    (runDirectory true files t).tests = t.tests + (files.map fun f => groups f.1 * (runFile f.2).attempted).sum ∧
    (runDirectory true files t).failed = t.failed + (files.map fun f => groups f.1 * (runFile f.2).failed).sum ∧
    (runDirectory true files t).files = t.files + (files.map fun f => groups f.1).sum := by
  have hc : ∀ p : Txt, critical p = true ↔ "core/".toList <:+: p ∨ "instabilities/".toList <:+: p := by
    intro p; unfold critical; rw [Bool.or_eq_true, mentions_iff, mentions_iff]
  have hi : ∀ p : Txt, important p = true ↔ "plotting/".toList <:+: p ∨ "fitfunctions/".toList <:+: p := by
    intro p; unfold important; rw [Bool.or_eq_true, mentions_iff, mentions_iff]
  have hg : ∀ p : Txt, groups p = (if critical p then 1 else 0) + (if important p then 1 else 0) := by
    intro p
    unfold groups
    congr 1
    · by_cases h : critical p = true
      · rw [if_pos h, if_pos ((hc p).mp h)]
      · rw [if_neg h, if_neg (fun q => h ((hc p).mpr q))]
    · by_cases h : important p = true
      · rw [if_pos h, if_pos ((hi p).mp h)]
      · rw [if_neg h, if_neg (fun q => h ((hi p).mpr q))]
  have key : ∀ w : Txt × Loaded → Nat, ((chosen true files).map w).sum = (files.map fun f => groups f.1 * w f).sum := by
    intro w
    unfold chosen
    rw [if_pos rfl, List.map_append, List.sum_append]
    induction files with
    | nil => simp
    | cons f fs ih =>
      simp only [List.map_cons, List.sum_cons, List.filter_cons]
      rw [← ih, hg]
      cases critical f.1 <;> cases important f.1 <;> simp <;> omega
  unfold runDirectory
  rw [foldl_add]
  have hlen := key (fun _ => 1)
  refine ⟨by rw [key fun f => (runFile f.2).attempted], by rw [key fun f => (runFile f.2).failed], ?_⟩
  simp only [Nat.mul_one] at hlen
  rw [← hlen]
  simp

/-- C250: the CI check exits with 0 iff every Python file that exists can be imported and has no failing doctest; reStructuredText, unreadable or
not, and other files never matter; the totals of tests are those of the Python files. -/
theorem C250_ci (files : List CiFile) (hh : ∀ l, .py l ∈ files → Honest l) :
    (ciExit files = 0 ↔ ∀ l, .py l ∈ files → Fine l) ∧ (ciExit files = 0 ∨ ciExit files = 1) ∧
    (ciRun files).1.tests = (files.map fun f => match f with | .py l => (runFile l).attempted | _ => 0).sum ∧
    (ciRun files).1.failed = (files.map fun f => match f with | .py l => (runFile l).failed | _ => 0).sum ∧
    (ciRun files).1.files = (files.map fun f => match f with | .py _ => 1 | .rst _ => 1 | _ => 0).sum := by
  have key : ∀ (fs : List CiFile) (s : Totals × Bool), (∀ l, .py l ∈ fs → Honest l) →
      ((fs.foldl ciStep s).2 = true ↔ s.2 = true ∧ ∀ l, .py l ∈ fs → Fine l) ∧
      (fs.foldl ciStep s).1.tests = s.1.tests + (fs.map fun f => match f with | .py l => (runFile l).attempted | _ => 0).sum ∧
      (fs.foldl ciStep s).1.failed = s.1.failed + (fs.map fun f => match f with | .py l => (runFile l).failed | _ => 0).sum ∧
      (fs.foldl ciStep s).1.files = s.1.files + (fs.map fun f => match f with | .py _ => 1 | .rst _ => 1 | _ => 0).sum := by
    intro fs
    induction fs with
    | nil => intro s _; simp
    | cons f fs ih =>
      intro s h
      obtain ⟨i1, i2, i3, i4⟩ := ih (ciStep s f) (fun l hl => h l (List.mem_cons_of_mem _ hl))
      rw [List.foldl_cons]
      cases f with
      | missing =>
        refine ⟨i1.trans ?_, i2.trans ?_, i3.trans ?_, i4.trans ?_⟩ <;> simp [ciStep]
      | other =>
        refine ⟨i1.trans ?_, i2.trans ?_, i3.trans ?_, i4.trans ?_⟩ <;> simp [ciStep]
      | rst b =>
        refine ⟨i1.trans ?_, i2.trans ?_, i3.trans ?_, i4.trans ?_⟩ <;> simp [ciStep, Nat.add_assoc]
      | py l =>
        have hf := (C250_file l (h l (by simp))).1
        refine ⟨i1.trans ?_, i2.trans ?_, i3.trans ?_, i4.trans ?_⟩
        · simp only [ciStep, Bool.and_eq_true, hf, List.mem_cons, CiFile.py.injEq]
          constructor
          · rintro ⟨⟨a, b⟩, c⟩
            refine ⟨a, ?_⟩
            rintro l' (rfl | h')
            · exact b
            · exact c l' h'
          · rintro ⟨a, b⟩
            exact ⟨⟨a, b l (Or.inl rfl)⟩, fun l' h' => b l' (Or.inr h')⟩
        · simp [ciStep, Totals.add, Nat.add_assoc]
        · simp [ciStep, Totals.add, Nat.add_assoc]
        · simp [ciStep, Totals.add, Nat.add_assoc]
  obtain ⟨k1, k2, k3, k4⟩ := key files (Totals.zero, true) hh
  refine ⟨?_, ?_, ?_, ?_, ?_⟩
  · unfold ciExit ciRun
    by_cases h : (files.foldl ciStep (Totals.zero, true)).2 = true
    · rw [if_pos h]; exact ⟨fun _ => (k1.mp h).2, fun _ => rfl⟩
    · rw [if_neg h]
      simp only [Nat.one_ne_zero, false_iff]
      intro hc
      exact h (k1.mpr ⟨rfl, hc⟩)
  · unfold ciExit; split
    · exact Or.inl rfl
    · exact Or.inr rfl
  · unfold ciRun; rw [k2]; simp [Totals.zero]
  · unfold ciRun; rw [k3]; simp [Totals.zero]
  · unfold ciRun; rw [k4]; simp [Totals.zero]

/-- Non-trivial: a file that cannot be imported fails in one script and passes in the other. -/
example : ciExit [.py .importError, .rst (some 3)] = 1 ∧ runnerExit (runDirectory false [("a.py".toList, .importError)] Totals.zero) = 0 ∧
    ciExit [.py (.module [⟨2, some (2, 0)⟩]), .rst none, .missing] = 0 ∧ ciExit [.py (.module [⟨2, some (2, 1)⟩])] = 1 := by decide +kernel

/-! ### C251 -/

theorem automodule_noBorder : NoBorder automodule := by unfold NoBorder automodule; decide +kernel

theorem blockAt_none (s : Txt) (h : ¬ automodule <+: s) : blockAt s = none := by
  unfold blockAt; rw [if_neg (by rw [List.isPrefixOf_iff_prefix]; exact h)]

theorem blockAt_block (name rest : Txt) (hn : name ≠ []) (h1 : '\n' ∉ name) : blockAt (automodule ++ (name ++ (options ++ rest))) = some name := by
  unfold blockAt
  rw [if_pos (by rw [List.isPrefixOf_iff_prefix]; exact List.prefix_append _ _), List.drop_left]
  obtain ⟨o, ho⟩ : ∃ o, options = '\n' :: o := ⟨_, rfl⟩
  have e1 : (name ++ (options ++ rest)).takeWhile (· ≠ '\n') = name := by
    rw [List.takeWhile_append_of_pos (fun c hc => by simp; rintro rfl; exact h1 hc), ho, List.cons_append, List.takeWhile_cons_of_neg (by simp),
      List.append_nil]
  have e2 : (name ++ (options ++ rest)).dropWhile (· ≠ '\n') = options ++ rest := by
    rw [List.dropWhile_append_of_pos (fun c hc => by simp; rintro rfl; exact h1 hc), ho, List.cons_append, List.dropWhile_cons_of_neg (by simp)]
  simp only [e1, e2]
  rw [if_pos ⟨hn, by rw [List.isPrefixOf_iff_prefix]; exact List.prefix_append _ _⟩]

theorem subGo_copy : ∀ (k : Nat) (x rest : Txt), x.length = k + 1 → subGo (k + 1) (x ++ rest) = x ++ (noIndex ++ subGo 0 rest) := by
  intro k
  induction k with
  | zero =>
    intro x rest hx
    match x, hx with
    | [c], _ => simp [subGo]
  | succ k ih =>
    intro x rest hx
    match x, hx with
    | c :: x, hx =>
      rw [List.cons_append, subGo, if_neg (by omega), ih x rest (by simpa using hx)]
      rfl

theorem subGo_skip (x rest : Txt) (hx : ¬ automodule <:+: x) :
    subGo 0 (x ++ automodule ++ rest) = x ++ subGo 0 (automodule ++ rest) := by
  induction x with
  | nil => rfl
  | cons c x ih =>
    have h := no_early _ automodule_noBorder (c :: x) rest hx (by simp)
    rw [List.cons_append, List.cons_append] at h
    rw [List.cons_append, List.cons_append, subGo, blockAt_none _ h]
    simp only []
    rw [ih (fun hh => hx (List.infix_cons_iff.mpr (Or.inr hh)))]
    rfl

theorem subGo_end (x : Txt) (hx : ¬ automodule <:+: x) : subGo 0 x = x := by
  induction x with
  | nil => rfl
  | cons c x ih =>
    rw [subGo, blockAt_none _ (fun h => hx h.isInfix)]
    simp only []
    rw [ih (fun hh => hx (List.infix_cons_iff.mpr (Or.inr hh)))]

theorem subGo_block (name rest : Txt) (hn : name ≠ []) (h1 : '\n' ∉ name) :
    subGo 0 (automodule ++ (name ++ (options ++ rest))) = automodule ++ name ++ options ++ noIndex ++ subGo 0 rest := by
  have hb := blockAt_block name rest hn h1
  obtain ⟨a, ha⟩ : ∃ a, automodule = '.' :: a := ⟨_, rfl⟩
  have hal : automodule.length = a.length + 1 := by rw [ha]; simp
  have hol : ∃ k, options.length = k + 1 := ⟨_, rfl⟩
  obtain ⟨k, hk⟩ := hol
  have e : automodule ++ (name ++ (options ++ rest)) = '.' :: (a ++ (name ++ (options ++ rest))) := by rw [ha]; rfl
  rw [e] at hb ⊢
  rw [subGo, hb]
  simp only []
  have hlen : automodule.length + name.length + options.length - 1 = (a.length + name.length + k) + 1 := by omega
  have e2 : a ++ (name ++ (options ++ rest)) = (a ++ name ++ options) ++ rest := by simp
  rw [hlen, e2, subGo_copy _ _ _ (by simp only [List.length_append]; omega), ha]
  simp

/-- Specification: a page in the form `sphinx-apidoc` writes: text, then blocks `.. automodule:: name` with the three options, each followed by text -/
def apidoc (pre : Txt) (blocks : List (Txt × Txt)) (ins : Txt) : Txt :=
  pre ++ blocks.flatMap fun b => automodule ++ b.1 ++ options ++ ins ++ b.2

/-- C251: on such a page without `:no-index:`, exactly each block gets the line `   :no-index:` behind its options, and nothing else changes.  -/
theorem C251_blocks (pre : Txt) (blocks : List (Txt × Txt)) (hp : ¬ automodule <:+: pre)
    (hb : ∀ b ∈ blocks, b.1 ≠ [] ∧ '\n' ∉ b.1 ∧ ¬ automodule <:+: b.2) (hne : blocks ≠ []) (hni : ¬ ":no-index:".toList <:+: apidoc pre blocks []) :
    page false (apidoc pre blocks []) = apidoc pre blocks "\n   :no-index:".toList := by
  have hsub : ∀ (bs : List (Txt × Txt)) (x : Txt), ¬ automodule <:+: x → (∀ b ∈ bs, b.1 ≠ [] ∧ '\n' ∉ b.1 ∧ ¬ automodule <:+: b.2) →
      subGo 0 (apidoc x bs []) = apidoc x bs noIndex := by
    intro bs
    induction bs with
    | nil => intro x hx _; simp only [apidoc, List.flatMap_nil, List.append_nil]; exact subGo_end x hx
    | cons b bs ih =>
      intro x hx h
      obtain ⟨h1, h2, h3⟩ := h b (by simp)
      have e : apidoc x (b :: bs) [] = x ++ automodule ++ (b.1 ++ (options ++ apidoc b.2 bs [])) := by simp [apidoc]
      rw [e, subGo_skip _ _ hx, subGo_block _ _ h1 h2, ih b.2 h3 (fun c hc => h c (by simp [hc]))]
      simp [apidoc]
  unfold page
  rw [if_neg (by simp), if_neg, if_neg]
  · exact hsub blocks pre hp hb
  · rw [splitFirst_isSome]; exact hni
  · rw [Option.isNone_iff_eq_none, splitFirst_none_iff, not_not]
    cases blocks with
    | nil => exact absurd rfl hne
    | cons b bs =>
      have ha : automodule = ".. automodule::".toList ++ [' '] := by decide +kernel
      have hin : ".. automodule::".toList <:+: automodule := ⟨[], [' '], by rw [ha]; rfl⟩
      refine hin.trans ⟨pre, b.1 ++ options ++ b.2 ++ bs.flatMap (fun b => automodule ++ b.1 ++ options ++ [] ++ b.2), ?_⟩
      simp only [apidoc, List.flatMap_cons, List.append_nil, List.append_assoc]

theorem subGo_has (k : Nat) (s : Txt) : subGo k s = s ∧ k = 0 ∨ noIndex <:+: subGo k s ∨ s.length < k := by
  induction s generalizing k with
  | nil =>
    cases k with
    | zero => left; exact ⟨by simp [subGo], rfl⟩
    | succ k => right; right; simp
  | cons c cs ih =>
    cases k with
    | succ k =>
      rw [subGo]
      by_cases hk : k = 0
      · rw [if_pos hk]
        right; left
        exact ⟨[c], subGo 0 cs, by simp⟩
      · rw [if_neg hk]
        rcases ih k with ⟨_, h⟩ | h | h
        · exact absurd h hk
        · right; left; exact h.trans (List.suffix_cons _ _).isInfix
        · right; right; simpa using h
    | zero =>
      rw [subGo]
      cases hb : blockAt (c :: cs) with
      | none =>
        simp only []
        rcases ih 0 with ⟨h, _⟩ | h | h
        · left; rw [h]; exact ⟨rfl, trivial⟩
        · right; left; exact h.trans (List.suffix_cons _ _).isInfix
        · omega
      | some name =>
        simp only []
        have hlen : automodule.length + name.length + options.length ≤ (c :: cs).length := by
          unfold blockAt at hb
          split at hb
          · rename_i hp
            simp only [] at hb
            split at hb
            · rename_i hq
              simp only [Option.some.injEq] at hb
              rw [List.isPrefixOf_iff_prefix] at hp
              have h1 := hq.2
              rw [List.isPrefixOf_iff_prefix] at h1
              have h2 := h1.length_le
              have h3 := hp.length_le
              have h4 := congrArg List.length (List.takeWhile_append_dropWhile (p := (· ≠ '\n')) (l := (c :: cs).drop automodule.length))
              rw [List.length_append, List.length_drop, hb] at h4
              omega
            · exact absurd hb (by simp)
          · exact absurd hb (by simp)
        have ha : automodule.length = 16 := by decide +kernel
        rcases ih (automodule.length + name.length + options.length - 1) with ⟨_, h⟩ | h | h
        · omega
        · right; left; exact h.trans (List.suffix_cons _ _).isInfix
        · simp only [List.length_cons] at hlen; omega

/-- C251: repeating changes nothing; the overview page and pages that have `:no-index:` anywhere - violated: also those where only one of several
blocks has it - or no automodule directive stay as they are. -/
theorem C251_again (m : Bool) (content : Txt) :
    page m (page m content) = page m content ∧ page true content = content ∧
    (":no-index:".toList <:+: content → page m content = content) ∧ (¬ automodule <:+: content → page m content = content) := by
  have h3 : ∀ c : Txt, ":no-index:".toList <:+: c → page m c = c := by
    intro c h
    unfold page
    split
    · rfl
    · split
      · rfl
      · rw [if_pos (by rw [splitFirst_isSome]; exact h)]
  refine ⟨?_, by simp [page], h3 content, ?_⟩
  · by_cases h : page m content = content
    · rw [h]; exact h
    · apply h3
      have hs : page m content = subGo 0 content := by
        unfold page at h ⊢
        split at h
        · exact absurd rfl h
        · split at h
          · exact absurd rfl h
          · split at h
            · exact absurd rfl h
            · rename_i a b c
              rw [if_neg a, if_neg b, if_neg c]
      rw [hs] at h ⊢
      rcases subGo_has 0 content with ⟨q, _⟩ | q | q
      · exact absurd q h
      · exact List.IsInfix.trans ⟨"\n   ".toList, [], rfl⟩ q
      · omega
  · intro h
    unfold page
    split
    · rfl
    · split
      · rfl
      · split
        · rfl
        · exact subGo_end content h

/-- Non-trivial; a block with other options stays without. -/
example : page false "x\n=\n\n.. automodule:: a.b\n   :members:\n   :show-inheritance:\n   :undoc-members:\n".toList =
      "x\n=\n\n.. automodule:: a.b\n   :members:\n   :show-inheritance:\n   :undoc-members:\n   :no-index:\n".toList ∧
    page false ".. automodule:: a\n   :members:\n   :undoc-members:\n   :show-inheritance:\n".toList =
      ".. automodule:: a\n   :members:\n   :undoc-members:\n   :show-inheritance:\n".toList := by decide +kernel

end DocS
end SW
