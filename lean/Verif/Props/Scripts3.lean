import Verif.Props.Scripts2
import Mathlib.Data.List.Dedup

/-!
# Release scripts: recipe, feedstock, pull request references, comparison, readiness (C147–C151)
-/

namespace SW.Scripts

/-! ### C147: the recipe -/

theorem prefix_strip_iff (a : Char) (p : List Char) (l : List Char) (ha : isWs a = false)
    (hlast : ∀ c, (a :: p).getLast? = some c → isWs c = false) :
    (a :: p).isPrefixOf (stripWs l) = true ↔ ∃ w rest, AllWs w ∧ l = w ++ (a :: p) ++ rest := by
  rw [List.isPrefixOf_iff_prefix]
  constructor
  · rintro ⟨t, ht⟩
    obtain ⟨w1, w2, h1, _, h3, _⟩ := strip_decomp l
    refine ⟨w1, t ++ w2, h1, ?_⟩
    rw [← ht] at h3
    rw [h3]; simp
  · rintro ⟨w, rest, hw, rfl⟩
    unfold stripWs
    rw [List.append_assoc, dropWhile_ws _ _ hw, List.cons_append, List.dropWhile_cons_of_neg (by simp [ha]), ← List.cons_append]
    rw [List.reverse_append, List.dropWhile_append]
    split
    · rw [dropWhile_head, List.reverse_reverse]
      intro c hc
      rw [List.head?_reverse] at hc
      exact hlast c hc
    · rw [List.reverse_append, List.reverse_reverse]
      exact ⟨_, rfl⟩

/-- Specification: a line that sets the version, a line that gives a hash. -/
def VersionLine (l : List Char) : Prop := ∃ w rest, AllWs w ∧ l = w ++ "{% set version =".toList ++ rest
def HashLine (l : List Char) : Prop := ∃ w rest, AllWs w ∧ l = w ++ "sha256:".toList ++ rest

theorem versionLine_iff (l : List Char) : "{% set version =".toList.isPrefixOf (stripWs l) = true ↔ VersionLine l := by
  have h : "{% set version =".toList = '{' :: "% set version =".toList := rfl
  unfold VersionLine
  rw [h]
  refine prefix_strip_iff '{' _ l (by decide +kernel) ?_
  intro c hc
  have : ('{' :: "% set version =".toList).getLast? = some '=' := by decide +kernel
  rw [this] at hc
  obtain rfl : '=' = c := by simpa using hc
  decide +kernel

theorem hashLine_iff (l : List Char) : "sha256:".toList.isPrefixOf (stripWs l) = true ↔ HashLine l := by
  have h : "sha256:".toList = 's' :: "ha256:".toList := rfl
  unfold HashLine
  rw [h]
  refine prefix_strip_iff 's' _ l (by decide +kernel) ?_
  intro c hc
  have : ('s' :: "ha256:".toList).getLast? = some ':' := by decide +kernel
  rw [this] at hc
  obtain rfl : ':' = c := by simpa using hc
  decide +kernel

theorem first_nonws {w rest w' rest' : List Char} {a b : Char} (hw : AllWs w) (hw' : AllWs w') (ha : isWs a = false) (hb : isWs b = false)
    (h : w ++ a :: rest = w' ++ b :: rest') : a = b := by
  have h1 := congrArg (List.dropWhile isWs) h
  rw [dropWhile_ws _ _ hw, dropWhile_ws _ _ hw', List.dropWhile_cons_of_neg (by simp [ha]), List.dropWhile_cons_of_neg (by simp [hb])] at h1
  simp at h1; exact h1.1

theorem not_both (l : List Char) : VersionLine l → ¬ HashLine l := by
  rintro ⟨w, r, hw, rfl⟩ ⟨w', r', hw', h⟩
  have h' : w ++ '{' :: ("% set version =".toList ++ r) = w' ++ 's' :: ("ha256:".toList ++ r') := by
    simpa [List.append_assoc] using h
  have := first_nonws hw hw' (by decide +kernel) (by decide +kernel) h'
  exact absurd this (by decide)

/-- one line of the recipe -/
theorem metaLine_spec (ver sha : String) (l : List Char) :
    (VersionLine l → metaLine ver sha l = ("{% set version = \"" ++ ver ++ "\" %}").toList) ∧
    (HashLine l → metaLine ver sha l = ("  sha256: " ++ sha).toList) ∧
    (¬ VersionLine l → ¬ HashLine l → metaLine ver sha l = l) := by
  unfold metaLine
  refine ⟨fun h => ?_, fun h => ?_, fun h1 h2 => ?_⟩
  · rw [if_pos ((versionLine_iff l).mpr h)]
  · rw [if_neg (fun hv => not_both l ((versionLine_iff l).mp hv) h), if_pos ((hashLine_iff l).mpr h)]
  · rw [if_neg (fun hv => h1 ((versionLine_iff l).mp hv)), if_neg (fun hv => h2 ((hashLine_iff l).mp hv))]

theorem metaLine_no_newline (ver sha : String) (l : List Char) (hv : '\n' ∉ ver.toList) (hs : '\n' ∉ sha.toList) (hl : '\n' ∉ l) :
    '\n' ∉ metaLine ver sha l := by
  unfold metaLine
  split
  · simp [String.toList_append, hv]
  · split
    · simp [String.toList_append, hs]
    · exact hl

theorem split_metaYaml (ver sha : String) (content : List Char) (hv : '\n' ∉ ver.toList) (hs : '\n' ∉ sha.toList) :
    Chars.split '\n' (metaYaml ver sha content) = (Chars.split '\n' content).map (metaLine ver sha) := by
  unfold metaYaml
  apply Chars.split_join
  · simp [Chars.split_ne_nil]
  · intro p hp
    obtain ⟨l, hl, rfl⟩ := List.mem_map.mp hp
    exact metaLine_no_newline ver sha l hv hs (Chars.not_mem_split _ _ _ hl)

/-- C147: line by line, the recipe gets the new version and hash where it had them and keeps every other line, with the same number of
lines; the last update wins, in particular repeating one changes nothing. -/
theorem C147_recipe (ver sha ver' sha' : String) (content : List Char) (hv : '\n' ∉ ver.toList) (hs : '\n' ∉ sha.toList) :
    (Chars.split '\n' (metaYaml ver sha content)).length = (Chars.split '\n' content).length ∧
    (∀ (i : Nat) l, (Chars.split '\n' content)[i]? = some l → ∃ l', (Chars.split '\n' (metaYaml ver sha content))[i]? = some l' ∧
      (VersionLine l → l' = ("{% set version = \"" ++ ver ++ "\" %}").toList) ∧
      (HashLine l → l' = ("  sha256: " ++ sha).toList) ∧
      (¬ VersionLine l → ¬ HashLine l → l' = l)) ∧
    metaYaml ver' sha' (metaYaml ver sha content) = metaYaml ver' sha' content := by
  have hsp := split_metaYaml ver sha content hv hs
  refine ⟨by rw [hsp, List.length_map], ?_, ?_⟩
  · intro i l hi
    refine ⟨metaLine ver sha l, ?_, metaLine_spec ver sha l⟩
    rw [hsp, List.getElem?_map, hi]; rfl
  · conv_lhs => rw [metaYaml, hsp, List.map_map]
    unfold metaYaml
    congr 1
    apply List.map_congr_left
    intro l _
    simp only [Function.comp]
    obtain ⟨h1, h2, h3⟩ := metaLine_spec ver sha l
    obtain ⟨g1, g2, g3⟩ := metaLine_spec ver' sha' l
    by_cases hvl : VersionLine l
    · rw [h1 hvl, g1 hvl]
      apply (metaLine_spec ver' sha' _).1
      exact ⟨[], (" \"" ++ ver ++ "\" %}").toList, by simp [AllWs], by simp [String.toList_append]⟩
    · by_cases hhl : HashLine l
      · rw [h2 hhl, g2 hhl]
        apply (metaLine_spec ver' sha' _).2.1
        refine ⟨[' ', ' '], (" " ++ sha).toList, ?_, by simp [String.toList_append]⟩
        intro c hc
        have : c = ' ' := by simpa using hc
        subst this; decide +kernel
      · rw [h3 hvl hhl]

/-- C147 (violated): a recipe in which no line starts with exactly `{% set version =` — for example with `{%- set` or without the space
before `=` — and without hash line is left unchanged, and the update still reports success; and every `sha256:` line is overwritten, so a
recipe with several sources gets the same hash for all. -/
theorem C147_silent (ver sha : String) (content : List Char) (h : ∀ l ∈ Chars.split '\n' content, ¬ VersionLine l ∧ ¬ HashLine l) :
    metaYaml ver sha content = content := by
  unfold metaYaml
  have : (Chars.split '\n' content).map (metaLine ver sha) = Chars.split '\n' content := by
    conv_rhs => rw [← List.map_id (Chars.split '\n' content)]
    apply List.map_congr_left
    intro l hl
    exact (metaLine_spec ver sha l).2.2 (h l hl).1 (h l hl).2
  rw [this, Chars.join_split]

example : metaYaml "0.2" "ff" "{% set version = \"0.1\" %}\nsource:\n    sha256: aa\n  patch:\n  sha256: bb".toList =
    "{% set version = \"0.2\" %}\nsource:\n  sha256: ff\n  patch:\n  sha256: ff".toList := by decide +kernel
example : metaYaml "0.2" "ff" "{%- set version = \"0.1\" %}".toList = "{%- set version = \"0.1\" %}".toList := by decide +kernel

/-! ### C148: the feedstock update -/

/-- C148: the update reports success only for a final version that the index confirmed with exactly that text and whose archive hash could
be computed; it opens at most one issue, for that version, never in a dry run; the commit is quoted only when the tag was verified. -/
theorem C148_update (ver : String) (dry : Bool) (w : World) :
    ((updateFeedstock ver dry w).1 = true →
      (∃ v, parseVersion ver = .ok v ∧ v.pre = none) ∧ w.index = .status 200 (some ver) ∧ ∃ h, w.sha = some h ∧ h ≠ "") ∧
    ((updateFeedstock ver dry w).1 = false → (updateFeedstock ver dry w).2 = []) ∧
    (dry = true → (updateFeedstock ver dry w).2 = []) ∧
    (updateFeedstock ver dry w).2.length ≤ 1 ∧
    (∀ p ∈ (updateFeedstock ver dry w).2, p.1 = ver ∧ (∀ c, p.2 = some c → w.provenance = (true, some c) ∧ c ≠ "")) := by
  unfold updateFeedstock
  by_cases h1 : validateRelease ver w.index = true
  · have hv : (∃ v, parseVersion ver = .ok v ∧ v.pre = none) ∧ w.index = .status 200 (some ver) := by
      unfold validateRelease at h1
      rw [Bool.and_eq_true] at h1
      obtain ⟨h2, h3⟩ := h1
      refine ⟨?_, (C89_found _ _).mp h3⟩
      unfold validateVersion at h2
      rcases hp : parseBody (dropV ver.toList) with _ | v
      · rw [hp] at h2; simp at h2
      · rw [hp] at h2; exact ⟨v, parseVersion_ok.mpr hp, by simpa using h2⟩
    rw [if_neg (by simp [h1])]
    rcases hs : w.sha with _ | h
    · simp
    · by_cases hh : h = ""
      · simp [hh]
      · cases dry with
        | true => simp [hh, hv.1, hv.2]
        | false =>
          cases hi : w.issue with
          | none => simp [hh, hv.1, hv.2]
          | some u =>
            rcases hq : w.provenance with ⟨ok, com⟩
            cases ok with
            | false => simp [hh, hv.1, hv.2]
            | true =>
              cases com with
              | none => simp [hh, hv.1, hv.2]
              | some c =>
                by_cases hc : c = ""
                · simp [hh, hv.1, hv.2, hc]
                · simp [hh, hv.1, hv.2, hc]
  · have : validateRelease ver w.index = false := by simpa using h1
    simp [this]

/-- C148 (violated): `--no-issue` has no effect, a failure to open the issue and a hash that differs from the GitHub release are not
reported, and the issue text never contains the comparison of the dependencies: it has the field name instead, whatever the comparison
said. -/
theorem C148_ignored (arg : String) (dry : Bool) (w : World) (pkg ver sha : String) (commit : Option String) (cmp cmp' : String) :
    feedstockMain arg dry true w = feedstockMain arg dry false w ∧
    (feedstockMain arg dry false { w with issue := none }).1 = (feedstockMain arg dry false w).1 ∧
    feedstockMain arg dry false { w with githubMatches := false } = feedstockMain arg dry false { w with githubMatches := true } ∧
    issueBody pkg ver sha commit cmp = issueBody pkg ver sha commit cmp' ∧
    "{comparison_output}".toList <:+: (issueBody pkg ver sha commit cmp).toList := by
  refine ⟨rfl, ?_, rfl, rfl, ?_⟩
  · have key : (updateFeedstock (normalizeVersion arg) dry { w with issue := none }).1 = (updateFeedstock (normalizeVersion arg) dry w).1 := ?_
    · unfold feedstockMain; simp only [key]
    unfold updateFeedstock
    by_cases h1 : validateRelease (normalizeVersion arg) w.index = true
    · simp only [h1]
      cases w.sha with
      | none => rfl
      | some h =>
        by_cases hh : h = ""
        · simp [hh]
        · cases dry <;> simp [hh]
    · have : validateRelease (normalizeVersion arg) w.index = false := by simpa using h1
      simp [this]
  · unfold issueBody issueTail
    rw [String.toList_append]
    refine ⟨(issueHead pkg ver sha commit).toList ++ "\n\n\n---\n\n".toList, "\n\n---\n\n### Update Checklist\n".toList, ?_⟩
    rw [List.append_assoc, List.append_assoc]
    congr 1

/-- a world in which everything goes well -/
def goodWorld : World := ⟨.status 200 (some "0.1.5"), (true, some "abc123"), some "ff", true, some "url"⟩

example : feedstockMain "v0.1.5" false true goodWorld = (0, [("0.1.5", some "abc123")]) := by decide +kernel
example : feedstockMain "v0.1.5" true false goodWorld = (0, []) := by decide +kernel
example : feedstockMain "v0.1.5-rc1" false false goodWorld = (1, []) := by decide +kernel

/-! ### C149: pull request references -/

/-- Specification: somewhere `#n` is not followed by ` (closed)`. -/
def OpenAt (ref s : List Char) : Prop := ∃ a b, s = a ++ ref ++ b ∧ ¬ " (closed)".toList <+: b

theorem openRef_iff (ref s : List Char) (hne : ref ≠ []) : openRef ref s = true ↔ OpenAt ref s := by
  induction s with
  | nil =>
    simp only [openRef, Bool.false_eq_true, false_iff]
    rintro ⟨a, b, h, _⟩
    have := congrArg List.length h
    simp at this
    exact hne (List.length_eq_zero_iff.mp (by omega))
  | cons c cs ih =>
    rw [openRef, Bool.or_eq_true, ih, Bool.and_eq_true, List.isPrefixOf_iff_prefix]
    constructor
    · rintro (⟨⟨t, ht⟩, h2⟩ | ⟨a, b, rfl, hb⟩)
      · refine ⟨[], t, by simpa using ht.symm, ?_⟩
        rw [← ht] at h2
        simp only [List.drop_left, Bool.not_eq_true', Bool.eq_false_iff, ne_eq] at h2
        rwa [List.isPrefixOf_iff_prefix] at h2
      · exact ⟨c :: a, b, by simp, hb⟩
    · rintro ⟨a, b, h, hb⟩
      cases a with
      | nil =>
        left
        rw [List.nil_append] at h
        refine ⟨⟨b, h.symm⟩, ?_⟩
        rw [h, List.drop_left]
        simp only [Bool.not_eq_true', Bool.eq_false_iff, ne_eq]
        rwa [List.isPrefixOf_iff_prefix]
      | cons d a =>
        right
        simp only [List.cons_append, List.cons.injEq] at h
        exact ⟨a, b, h.2, hb⟩

/-- `mark_closed` deals with the text in this order: nothing, a match, or one character -/
theorem closeGo_skip (ref : List Char) : ∀ (k : Nat) (pre cs : List Char), pre.length = k → closeGo ref k (pre ++ cs) = closeGo ref 0 cs := by
  intro k
  induction k with
  | zero => intro pre cs h; rw [List.length_eq_zero_iff.mp h]; rfl
  | succ k ih =>
    intro pre cs h
    cases pre with
    | nil => simp at h
    | cons c pre => rw [List.cons_append, closeGo]; exact ih pre cs (by simpa using h)

theorem closeGo_match (ref b : List Char) (hne : ref ≠ []) (hb : ¬ " (closed)".toList <+: b) :
    closeGo ref 0 (ref ++ b) = ref ++ " (closed)".toList ++ closeGo ref 0 b := by
  cases ref with
  | nil => exact absurd rfl hne
  | cons a ref =>
    rw [List.cons_append, closeGo, if_pos]
    · congr 1
      exact closeGo_skip _ _ ref b (by simp)
    · rw [Bool.and_eq_true, List.isPrefixOf_iff_prefix]
      refine ⟨⟨b, by simp⟩, ?_⟩
      simp only [← List.cons_append, List.drop_left, Bool.not_eq_true', Bool.eq_false_iff, ne_eq]
      rwa [List.isPrefixOf_iff_prefix]

theorem closeGo_cons (ref : List Char) (c : Char) (cs : List Char) (h : ¬ (ref <+: c :: cs ∧ ¬ " (closed)".toList <+: (c :: cs).drop ref.length)) :
    closeGo ref 0 (c :: cs) = c :: closeGo ref 0 cs := by
  rw [closeGo, if_neg]
  rw [Bool.and_eq_true, List.isPrefixOf_iff_prefix]
  simp only [Bool.not_eq_true', Bool.eq_false_iff, ne_eq, List.isPrefixOf_iff_prefix]
  exact h

theorem closeGo_prefix (ref : List Char) (x : Char) (hx : ref.head? ≠ some x) (hne : ref ≠ []) : ∀ (pat : List Char), (∀ c ∈ pat, ref.head? ≠ some c) →
    ∀ s, pat <+: closeGo ref 0 s ↔ pat <+: s := by
  intro pat
  induction pat with
  | nil => intro _ s; simp
  | cons p pat ih =>
    intro hp s
    have hph := hp p (by simp)
    have ih' := ih (fun c hc => hp c (by simp [hc]))
    cases s with
    | nil => simp [closeGo]
    | cons c cs =>
      by_cases hm : ref <+: c :: cs ∧ ¬ " (closed)".toList <+: (c :: cs).drop ref.length
      · obtain ⟨⟨b, hb⟩, hcl⟩ := hm
        rw [← hb, List.drop_left] at hcl
        rw [← hb, closeGo_match ref b hne hcl]
        cases ref with
        | nil => exact absurd rfl hne
        | cons a ref =>
          have : p ≠ a := fun hh => hph (by simp [hh])
          simp [this]
      · rw [closeGo_cons ref c cs hm]
        simp only [List.cons_prefix_cons, ih']

/-- After marking, every reference is followed by ` (closed)`. -/
theorem closeGo_closed (ref : List Char) (a : Char) (r : List Char) (hr : ref = a :: r) (ha : a ∉ r) (hac : a ∉ " (closed)".toList) :
    ∀ s, ¬ OpenAt ref (closeGo ref 0 s) := by
  have hne : ref ≠ [] := by rw [hr]; simp
  intro s
  induction hn : s.length using Nat.strong_induction_on generalizing s with
  | _ n ih =>
    cases s with
    | nil =>
      rintro ⟨x, y, h, _⟩
      have := congrArg List.length h
      simp [closeGo] at this
      exact hne (List.length_eq_zero_iff.mp (by omega))
    | cons c cs =>
      by_cases hm : ref <+: c :: cs ∧ ¬ " (closed)".toList <+: (c :: cs).drop ref.length
      · obtain ⟨⟨b, hb⟩, hcl⟩ := hm
        rw [← hb, List.drop_left] at hcl
        rw [← hb, closeGo_match ref b hne hcl]
        rintro ⟨x, y, h, hy⟩
        have hlen : b.length < n := by
          have := congrArg List.length hb
          simp [hr] at this
          simp at hn
          omega
        have hb' := ih b.length hlen b rfl
        -- where does the open reference start?
        rw [List.append_assoc, List.append_assoc] at h
        rcases x with _ | ⟨x0, x⟩
        · rw [List.nil_append] at h
          have h2 := List.append_cancel_left h
          exact hy ⟨_, h2⟩
        · -- it starts after the first character of the match, so inside or after the inserted text
          rw [hr] at h
          simp only [List.cons_append, List.cons.injEq] at h
          have h2 := h.2
          rw [← List.append_assoc] at h2
          have key : ∀ (u x v w : List Char), a ∉ u → u ++ v = x ++ (a :: r ++ w) → ∃ x', v = x' ++ (a :: r ++ w) := by
            intro u
            induction u with
            | nil => intro x v w _ h; exact ⟨x, by simpa using h⟩
            | cons d u ihu =>
              intro x v w hd h
              cases x with
              | nil =>
                simp only [List.nil_append, List.cons_append, List.cons.injEq] at h
                exact absurd (by rw [h.1]; simp) hd
              | cons e x =>
                simp only [List.cons_append, List.cons.injEq] at h
                exact ihu x v w (fun hh => hd (by simp [hh])) (by rw [h.2]; simp)
          obtain ⟨x', hx'⟩ := key (r ++ " (closed)".toList) x _ y (by rw [List.mem_append, not_or]; exact ⟨ha, hac⟩) h2
          exact hb' ⟨x', y, by rw [hr, hx']; simp, hy⟩
      · rw [closeGo_cons ref c cs hm]
        rintro ⟨x, y, h, hy⟩
        have hcs := ih cs.length (by simp at hn; omega) cs rfl
        rcases x with _ | ⟨x0, x⟩
        · rw [List.nil_append, hr] at h
          simp only [List.cons_append, List.cons.injEq] at h
          obtain ⟨rfl, h2⟩ := h
          -- the tail of the reference survives unchanged, as does what follows
          have hcopy : ∀ (p s t : List Char), c ∉ p → closeGo ref 0 s = p ++ t → ∃ s', s = p ++ s' ∧ closeGo ref 0 s' = t := by
            intro p
            induction p with
            | nil => intro s t _ h; exact ⟨s, rfl, h⟩
            | cons d p ihp =>
              intro s t hd h
              have hdc : d ≠ c := fun hh => hd (by simp [hh])
              cases s with
              | nil => simp [closeGo] at h
              | cons e s =>
                by_cases hm' : ref <+: e :: s ∧ ¬ " (closed)".toList <+: (e :: s).drop ref.length
                · obtain ⟨⟨b, hb⟩, hcl⟩ := hm'
                  rw [← hb, List.drop_left] at hcl
                  rw [← hb, closeGo_match ref b hne hcl, hr] at h
                  simp only [List.cons_append, List.cons.injEq] at h
                  exact absurd h.1.symm hdc
                · rw [closeGo_cons ref e s hm'] at h
                  simp only [List.cons_append, List.cons.injEq] at h
                  obtain ⟨s', h1, h2⟩ := ihp s t (fun hh => hd (by simp [hh])) h.2
                  exact ⟨s', by rw [h.1, h1]; rfl, h2⟩
          obtain ⟨s', h3, h4⟩ := hcopy r cs y ha (by rw [hr]; exact h2)
          apply hm
          refine ⟨⟨s', by rw [hr, h3]; rfl⟩, ?_⟩
          have : (c :: cs).drop ref.length = s' := by rw [h3, ← List.cons_append, ← hr, List.drop_left]
          rw [this]
          intro hpre
          apply hy
          rw [← h4]
          apply (closeGo_prefix ref ' ' ?_ hne _ ?_ s').mpr hpre
          · rw [hr]; simp only [List.head?_cons, ne_eq, Option.some.injEq]
            rintro rfl; exact hac (by decide +kernel)
          · intro d hd
            rw [hr]; simp only [List.head?_cons, ne_eq, Option.some.injEq]
            rintro rfl; exact hac hd
        · simp only [List.cons_append, List.cons.injEq] at h
          exact hcs ⟨x, y, h.2, hy⟩

theorem refText_eq (n : Nat) : refText n = '#' :: Nat.toDigits 10 n := by rw [refText, toList_toString]

theorem hash_not_digit (n : Nat) : '#' ∉ Nat.toDigits 10 n := by
  intro h
  have := (digits_facts n).2.1 _ h
  exact absurd this (by decide)

/-- C149 (closing): marking a pull request closed leaves no reference to it unmarked, so a second run finds nothing to do and leaves the
file alone; a run that finds nothing reports it and does not write. -/
theorem C149_closed (n : Nat) (content : List Char) :
    (∀ c', markClosed n content = some c' → ¬ OpenAt (refText n) c' ∧ markClosed n c' = none) ∧
    (markClosed n content = none ↔ ¬ OpenAt (refText n) content) ∧
    (∀ code f', prMain n "closed" (some content) = (code, f') → (code = 0 ↔ OpenAt (refText n) content) ∧ (code ≠ 0 → f' = some content)) ∧
    prMain n "closed" none = (1, none) := by
  have hne : refText n ≠ [] := by simp [refText]
  have hclosed : ∀ s, ¬ OpenAt (refText n) (closeGo (refText n) 0 s) :=
    closeGo_closed (refText n) '#' _ (refText_eq n) (hash_not_digit n) (by decide +kernel)
  have hnone : ∀ s, markClosed n s = none ↔ ¬ OpenAt (refText n) s := by
    intro s
    rw [← openRef_iff _ _ hne]
    unfold markClosed
    split <;> simp_all
  refine ⟨?_, hnone content, ?_, rfl⟩
  · intro c' h
    have : c' = closeGo (refText n) 0 content := by
      unfold markClosed at h
      split at h
      · simpa using h.symm
      · simp at h
    rw [this]
    exact ⟨hclosed _, (hnone _).mpr (hclosed _)⟩
  · intro code f' h
    unfold prMain at h
    simp only [if_true] at h
    rcases hm : markClosed n content with _ | c'
    · rw [hm] at h
      simp only [Prod.mk.injEq] at h
      obtain ⟨rfl, rfl⟩ := h
      exact ⟨⟨fun h => absurd h (by simp), fun h => absurd h ((hnone _).mp hm)⟩, fun _ => rfl⟩
    · rw [hm] at h
      simp only [Prod.mk.injEq] at h
      obtain ⟨rfl, rfl⟩ := h
      refine ⟨⟨fun _ => ?_, fun _ => rfl⟩, fun h => absurd rfl h⟩
      by_contra hc
      rw [(hnone _).mpr hc] at hm
      simp at hm

theorem toDigits_append (n k : Nat) (hn : 0 < n) (hk : k < 10) : Nat.toDigits 10 (10 * n + k) = Nat.toDigits 10 n ++ Nat.toDigits 10 k :=
  (Nat.toDigits_append_toDigits (by decide) hn hk).symm

/-- C149 (violated): numbers are matched as text, so closing request `n` also cuts through every reference to a longer number that starts
with the same digits: `#10n+k` becomes `#n (closed)k`. -/
theorem C149_prefix (n k : Nat) (hn : 0 < n) (hk : k < 10) :
    markClosed n (refText (10 * n + k)) = some (refText n ++ " (closed)".toList ++ Nat.toDigits 10 k) := by
  have hne : refText n ≠ [] := by simp [refText]
  have hsplit : refText (10 * n + k) = refText n ++ Nat.toDigits 10 k := by
    rw [refText_eq, refText_eq, toDigits_append n k hn hk]; rfl
  have hkd : Nat.toDigits 10 k = [k.digitChar] := Nat.toDigits_of_lt_base hk
  have hno : ¬ " (closed)".toList <+: Nat.toDigits 10 k := by
    rintro ⟨t, ht⟩
    have := congrArg List.length ht
    rw [hkd] at this
    simp at this
  have hopen : openRef (refText n) (refText (10 * n + k)) = true := by
    rw [openRef_iff _ _ hne]
    exact ⟨[], _, by rw [hsplit]; rfl, hno⟩
  unfold markClosed
  rw [if_pos hopen, hsplit, closeGo_match _ _ hne hno]
  congr 2
  rw [hkd, closeGo_cons]
  · rfl
  · rintro ⟨⟨t, ht⟩, _⟩
    rw [refText_eq] at ht
    simp only [List.cons_append, List.cons.injEq] at ht
    have h3 := (digits_facts n).1
    have h4 := List.append_eq_nil_iff.mp ht.2
    exact h3 h4.1

/-- the text after replacing the placeholder contains none -/
theorem placeholder_gone (n : Nat) : ∀ s, ¬ "#PR_NUMBER".toList <:+: Labels.replGo "#PR_NUMBER".toList (refText n) 0 s := by
  have hold : "#PR_NUMBER".toList = '#' :: "PR_NUMBER".toList := rfl
  have hne : "#PR_NUMBER".toList ≠ [] := by simp
  have hd : ∃ d ds, Nat.toDigits 10 n = d :: ds := by
    rcases h : Nat.toDigits 10 n with _ | ⟨d, ds⟩
    · exact absurd h (digits_facts n).1
    · exact ⟨d, ds, rfl⟩
  obtain ⟨d, ds, hds⟩ := hd
  have hdP : d ≠ 'P' := by
    have := (digits_facts n).2.1 d (by rw [hds]; simp)
    rintro rfl; exact absurd this (by decide)
  have href : refText n = '#' :: d :: ds := by rw [refText_eq, hds]
  -- a text without `#` copied at the front of the result was at the front of the original
  have hcopy : ∀ (p s : List Char), '#' ∉ p → p <+: Labels.replGo "#PR_NUMBER".toList (refText n) 0 s → p <+: s := by
    intro p
    induction p with
    | nil => intro s _ _; exact List.nil_prefix
    | cons c p ih =>
      intro s hp h
      cases s with
      | nil => simp [Labels.replGo] at h
      | cons e s =>
        by_cases hm : "#PR_NUMBER".toList <+: e :: s
        · obtain ⟨b, hb⟩ := hm
          rw [← hb, Labels.replGo_match _ _ _ hne, href] at h
          simp only [List.cons_append, List.cons_prefix_cons] at h
          exact absurd (by rw [h.1]; simp) hp
        · rw [Labels.replGo_cons _ _ _ _ hm] at h
          rw [List.cons_prefix_cons] at h ⊢
          exact ⟨h.1, ih s (fun hh => hp (by simp [hh])) h.2⟩
  intro s
  induction hn : s.length using Nat.strong_induction_on generalizing s with
  | _ m ih =>
    cases s with
    | nil => simp [Labels.replGo]
    | cons c cs =>
      by_cases hm : "#PR_NUMBER".toList <+: c :: cs
      · obtain ⟨b, hb⟩ := hm
        have hlen : b.length < m := by
          have := congrArg List.length hb
          simp at this
          simp at hn
          omega
        rw [← hb, Labels.replGo_match _ _ _ hne]
        intro hin
        rw [href] at hin
        -- the placeholder would start inside `#n` or after it
        have hstep : ∀ (u v : List Char), '#' ∉ u → "#PR_NUMBER".toList <:+: u ++ v → "#PR_NUMBER".toList <:+: v := by
          intro u
          induction u with
          | nil => intro v _ h; simpa using h
          | cons x u ihu =>
            intro v hx h
            rw [List.cons_append, List.infix_cons_iff] at h
            rcases h with h | h
            · rw [hold, List.cons_prefix_cons] at h
              exact absurd (by rw [h.1]; simp) hx
            · exact ihu v (fun hh => hx (by simp [hh])) h
        rw [List.cons_append, List.infix_cons_iff] at hin
        rcases hin with hin | hin
        · rw [hold, List.cons_append, List.cons_prefix_cons] at hin
          have h2 := hin.2
          rw [show "PR_NUMBER".toList = 'P' :: "R_NUMBER".toList from rfl, List.cons_prefix_cons] at h2
          exact hdP h2.1.symm
        · have hh : '#' ∉ d :: ds := by rw [← hds]; exact hash_not_digit n
          have h9 := hstep _ _ hh hin
          rw [← href] at h9
          exact ih b.length hlen b rfl h9
      · rw [Labels.replGo_cons _ _ _ _ hm]
        intro hin
        rw [List.infix_cons_iff] at hin
        rcases hin with hin | hin
        · rw [hold, List.cons_prefix_cons] at hin
          apply hm
          rw [hold, List.cons_prefix_cons]
          exact ⟨hin.1, hcopy _ cs (by decide +kernel) hin.2⟩
        · exact ih cs.length (by simp at hn; omega) cs rfl hin

/-- C149 (opening): when a placeholder is present every one is replaced and none remains; the exit code of `opened` says whether there was
one, `reopened` always succeeds, and without placeholder the file is not written. -/
theorem C149_opened (n : Nat) (content : List Char) :
    ("#PR_NUMBER".toList <:+: content → ∃ c', (prMain n "opened" (some content)) = (0, some c') ∧ prMain n "reopened" (some content) = (0, some c') ∧
      ¬ "#PR_NUMBER".toList <:+: c') ∧
    (¬ "#PR_NUMBER".toList <:+: content → prMain n "opened" (some content) = (1, some content) ∧
      prMain n "reopened" (some content) = (0, some content)) ∧
    (∀ a b, ¬ "#PR_NUMBER".toList <:+: b → '#' ∉ a → prMain n "opened" (some (a ++ "#PR_NUMBER".toList ++ b)) = (0, some (a ++ refText n ++ b))) := by
  have hrep : ∀ c, "#PR_NUMBER".toList <:+: c → replacePlaceholder n c = some (Labels.replGo "#PR_NUMBER".toList (refText n) 0 c) := by
    intro c h
    unfold replacePlaceholder
    rw [if_neg]
    · rfl
    · simp only [Option.isNone_iff_eq_none, splitFirst_none_iff]; exact not_not.mpr h
  refine ⟨?_, ?_, ?_⟩
  · intro h
    refine ⟨_, ?_, ?_, placeholder_gone n content⟩
    · simp [prMain, hrep content h]
    · simp [prMain, hrep content h]
  · intro h
    have : replacePlaceholder n content = none := by
      unfold replacePlaceholder
      rw [if_pos]
      simp only [Option.isNone_iff_eq_none, splitFirst_none_iff]; exact h
    simp [prMain, this]
  · intro a b hb ha
    have hskip : ∀ (a t : List Char), '#' ∉ a → Labels.replGo "#PR_NUMBER".toList (refText n) 0 (a ++ t) =
        a ++ Labels.replGo "#PR_NUMBER".toList (refText n) 0 t := by
      intro a t
      induction a with
      | nil => intro _; rfl
      | cons c a ih =>
        intro hc
        rw [List.cons_append, show "#PR_NUMBER".toList = '#' :: "PR_NUMBER".toList from rfl,
          Labels.replGo_head_ne '#' _ _ c _ (fun hh => hc (by simp [hh]))]
        rw [show '#' :: "PR_NUMBER".toList = "#PR_NUMBER".toList from rfl, ih (fun hh => hc (by simp [hh]))]; rfl
    have := hrep (a ++ "#PR_NUMBER".toList ++ b) ⟨a, b, rfl⟩
    simp only [prMain, this]
    rw [if_neg (by decide), List.append_assoc, hskip _ _ ha, Labels.replGo_match _ _ _ (by simp), Labels.replGo_of_not_infix _ _ _ hb]
    simp

example : markClosed 12 "see #12, #12 (closed), #123".toList = some "see #12 (closed), #12 (closed), #12 (closed)3".toList := by decide +kernel
example : prMain 7 "opened" (some "PR #PR_NUMBER and #PR_NUMBER".toList) = (0, some "PR #7 and #7".toList) := by decide +kernel

/-! ### C150: comparing dependencies -/

/-- Specification: a name without `<`, `>`, `=` and without white space around it. -/
def NameLike (s : List Char) : Prop := '<' ∉ s ∧ '>' ∉ s ∧ '=' ∉ s ∧ Trimmed s

theorem before_at (a : Char) (op pre rest : List Char) (s : String) (hs : s.toList = a :: op) (h : a ∉ pre) :
    before s (pre ++ (a :: op ++ rest)) = pre := by
  unfold before
  rw [hs, splitFirst_at a op pre rest h]

theorem before_none (a : Char) (op pre : List Char) (s : String) (hs : s.toList = a :: op) (h : a ∉ pre) : before s pre = pre := by
  unfold before
  rw [hs, splitFirst_none a op pre h]

/-- cutting at an operator that cannot start within `pre` keeps `pre` -/
theorem before_skip (a : Char) (op pre rest : List Char) (s : String) (hs : s.toList = a :: op) (h : a ∉ pre) :
    ∃ rest', before s (pre ++ rest) = pre ++ rest' := by
  unfold before
  rw [hs, splitFirst_skip a op pre rest h]
  rcases splitFirst (a :: op) rest with _ | ⟨p, q⟩
  · exact ⟨rest, rfl⟩
  · exact ⟨p, rfl⟩

theorem pkgName_spec (name w rest : List Char) (hn : NameLike name) (hw : AllWs w) :
    pkgName (name ++ w) = name ∧ pkgName (name ++ w ++ ">=".toList ++ rest) = name ∧ pkgName (name ++ w ++ "<".toList ++ rest) = name ∧
    pkgName (name ++ w ++ "==".toList ++ rest) = name := by
  obtain ⟨h1, h2, h3, ht⟩ := hn
  have a1 : '<' ∉ name ++ w := by simp [h1, ws_no_op hw '<' (by decide)]
  have a2 : '>' ∉ name ++ w := by simp [h2, ws_no_op hw '>' (by decide)]
  have a3 : '=' ∉ name ++ w := by simp [h3, ws_no_op hw '=' (by decide)]
  have hs : stripWs (name ++ w) = name := by
    have := strip_pad [] name w (by simp [AllWs]) hw ht
    simpa using this
  have n1 : before "<" (name ++ w) = name ++ w := before_none '<' [] _ "<" rfl a1
  have n2 : before ">=" (name ++ w) = name ++ w := before_none '>' ['='] _ ">=" rfl a2
  have n3 : before "==" (name ++ w) = name ++ w := before_none '=' ['='] _ "==" rfl a3
  unfold pkgName
  refine ⟨by rw [n2, n1, n3, hs], ?_, ?_, ?_⟩
  · have : before ">=" (name ++ w ++ ">=".toList ++ rest) = name ++ w := by
      rw [List.append_assoc (name ++ w)]; exact before_at '>' ['='] _ rest ">=" rfl a2
    rw [this, n1, n3, hs]
  · have h4 : '>' ∉ name ++ w ++ "<".toList := by
      rw [List.mem_append, not_or]; exact ⟨a2, by decide +kernel⟩
    obtain ⟨rest', hr⟩ := before_skip '>' ['='] (name ++ w ++ "<".toList) rest ">=" rfl h4
    rw [hr]
    have : before "<" (name ++ w ++ "<".toList ++ rest') = name ++ w := by
      rw [List.append_assoc (name ++ w)]; exact before_at '<' [] _ rest' "<" rfl a1
    rw [this, n3, hs]
  · have h4 : '>' ∉ name ++ w ++ "==".toList := by
      rw [List.mem_append, not_or]; exact ⟨a2, by decide +kernel⟩
    have h5 : '<' ∉ name ++ w ++ "==".toList := by
      rw [List.mem_append, not_or]; exact ⟨a1, by decide +kernel⟩
    obtain ⟨rest', hr⟩ := before_skip '>' ['='] (name ++ w ++ "==".toList) rest ">=" rfl h4
    rw [hr]
    obtain ⟨rest'', hr'⟩ := before_skip '<' [] (name ++ w ++ "==".toList) rest' "<" rfl h5
    rw [hr']
    have : before "==" (name ++ w ++ "==".toList ++ rest'') = name ++ w := by
      rw [List.append_assoc (name ++ w)]; exact before_at '=' ['='] _ rest'' "==" rfl a3
    rw [this, hs]

theorem specOf_mem (deps : List (List Char)) (hn : (deps.map pkgName).Nodup) (d : List Char) (hd : d ∈ deps) : specOf deps (pkgName d) = d := by
  unfold specOf
  rcases hf : deps.reverse.find? (fun x => decide (pkgName x = pkgName d)) with _ | e
  · rw [List.find?_eq_none] at hf
    exact absurd (by simp) (hf d (by simpa using hd))
  · have h1 := List.find?_some hf
    have h2 := List.mem_of_find?_eq_some hf
    simp only [decide_eq_true_eq] at h1
    rw [Option.getD_some]
    exact List.inj_on_of_nodup_map hn (by simpa using h2) hd h1

theorem specOf_none (deps : List (List Char)) (n : List Char) (h : ∀ d ∈ deps, pkgName d ≠ n) : specOf deps n = [] := by
  unfold specOf
  have : deps.reverse.find? (fun x => decide (pkgName x = n)) = none := by
    rw [List.find?_eq_none]
    intro x hx
    simpa using h x (by simpa using hx)
  rw [this]; rfl

/-- C150: when each list names a package once, the table has exactly one row for every package of either list, and the row's marker says
what holds: identical entries are not marked, different entries of the same package are marked as different, and a package of one list
only as added or as missing. -/
theorem C150_rows (py feed : List (List Char)) (hpy : (py.map pkgName).Nodup) (hfeed : (feed.map pkgName).Nodup)
    (hne : ∀ d ∈ py ++ feed, d ≠ []) :
    ((rows py feed).map (fun r => r.1)).Nodup ∧
    (∀ n, n ∈ (rows py feed).map (fun r => r.1) ↔ ∃ d ∈ py ++ feed, pkgName d = n) ∧
    (∀ n m l r, (n, m, l, r) ∈ rows py feed →
      (m = .same ↔ ∃ d ∈ py, d ∈ feed ∧ pkgName d = n) ∧
      (m = .different ↔ ∃ d ∈ py, ∃ d' ∈ feed, pkgName d = n ∧ pkgName d' = n ∧ d ≠ d') ∧
      (m = .added ↔ (∃ d ∈ py, pkgName d = n) ∧ ∀ d' ∈ feed, pkgName d' ≠ n) ∧
      (m = .onlyFeedstock ↔ (∃ d ∈ feed, pkgName d = n) ∧ ∀ d' ∈ py, pkgName d' ≠ n)) := by
  have hnames : (rows py feed).map (fun r => r.1) = (py.map pkgName ++ feed.map pkgName).dedup := by
    unfold rows
    rw [List.map_map]
    conv_rhs => rw [← List.map_id (py.map pkgName ++ feed.map pkgName).dedup]
    rfl
  refine ⟨by rw [hnames]; exact List.nodup_dedup _, ?_, ?_⟩
  · intro n
    rw [hnames, List.mem_dedup]
    simp only [List.mem_append, List.mem_map]
    constructor
    · rintro (⟨d, hd, h⟩ | ⟨d, hd, h⟩)
      · exact ⟨d, Or.inl hd, h⟩
      · exact ⟨d, Or.inr hd, h⟩
    · rintro ⟨d, hd | hd, h⟩
      · exact Or.inl ⟨d, hd, h⟩
      · exact Or.inr ⟨d, hd, h⟩
  · intro n m l r hrow
    unfold rows at hrow
    obtain ⟨n', hn', heq⟩ := List.mem_map.mp hrow
    simp only [Prod.mk.injEq] at heq
    obtain ⟨rfl, rfl, _, _⟩ := heq
    rw [List.mem_dedup] at hn'
    by_cases hp : ∃ d ∈ py, pkgName d = n'
    · obtain ⟨d, hd, hdn⟩ := hp
      have hl : specOf py n' = d := by rw [← hdn]; exact specOf_mem py hpy d hd
      have hd0 : d ≠ [] := hne d (by simp [hd])
      have uniq : ∀ x ∈ py, pkgName x = n' → x = d := fun x hx hxn => by
        rw [← specOf_mem py hpy x hx, hxn, hl]
      by_cases hf : ∃ d' ∈ feed, pkgName d' = n'
      · obtain ⟨d', hd', hdn'⟩ := hf
        have hr : specOf feed n' = d' := by rw [← hdn']; exact specOf_mem feed hfeed d' hd'
        have hd0' : d' ≠ [] := hne d' (by simp [hd'])
        have uniq' : ∀ x ∈ feed, pkgName x = n' → x = d' := fun x hx hxn => by
          rw [← specOf_mem feed hfeed x hx, hxn, hr]
        rw [hl, hr]
        unfold marker
        rw [if_pos ⟨hd0, hd0'⟩]
        by_cases hdd : d = d'
        · subst hdd
          rw [if_neg (by simp)]
          refine ⟨⟨fun _ => ⟨d, hd, hd', hdn⟩, fun _ => rfl⟩, ⟨fun h => by simp at h, ?_⟩, ⟨fun h => by simp at h, ?_⟩, ⟨fun h => by simp at h, ?_⟩⟩
          · rintro ⟨x, hx, y, hy, h1, h2, h3⟩
            exact absurd ((uniq x hx h1).trans (uniq' y hy h2).symm) h3
          · rintro ⟨_, h⟩; exact absurd hdn (h d hd')
          · rintro ⟨_, h⟩; exact absurd hdn (h d hd)
        · rw [if_pos hdd]
          refine ⟨⟨fun h => by simp at h, ?_⟩, ⟨fun _ => ⟨d, hd, d', hd', hdn, hdn', hdd⟩, fun _ => rfl⟩, ⟨fun h => by simp at h, ?_⟩, ⟨fun h => by simp at h, ?_⟩⟩
          · rintro ⟨x, hx, hx', h1⟩
            exact absurd ((uniq x hx h1).symm.trans (uniq' x hx' h1)) hdd
          · rintro ⟨_, h⟩; exact absurd hdn' (h d' hd')
          · rintro ⟨_, h⟩; exact absurd hdn (h d hd)
      · have hf' : ∀ x ∈ feed, pkgName x ≠ n' := fun x hx hxn => hf ⟨x, hx, hxn⟩
        rw [hl, specOf_none feed n' hf']
        unfold marker
        rw [if_neg (by simp), if_pos ⟨hd0, rfl⟩]
        refine ⟨⟨fun h => by simp at h, ?_⟩, ⟨fun h => by simp at h, ?_⟩, ⟨fun _ => ⟨⟨d, hd, hdn⟩, hf'⟩, fun _ => rfl⟩, ⟨fun h => by simp at h, ?_⟩⟩
        · rintro ⟨x, _, hx', h1⟩; exact absurd h1 (hf' x hx')
        · rintro ⟨_, _, y, hy, _, h2, _⟩; exact absurd h2 (hf' y hy)
        · rintro ⟨⟨y, hy, h2⟩, _⟩; exact absurd h2 (hf' y hy)
    · have hp' : ∀ x ∈ py, pkgName x ≠ n' := fun x hx hxn => hp ⟨x, hx, hxn⟩
      have hf : ∃ d' ∈ feed, pkgName d' = n' := by
        rcases List.mem_append.mp hn' with h | h
        · obtain ⟨x, hx, hxn⟩ := List.mem_map.mp h; exact absurd hxn (hp' x hx)
        · obtain ⟨x, hx, hxn⟩ := List.mem_map.mp h; exact ⟨x, hx, hxn⟩
      obtain ⟨d', hd', hdn'⟩ := hf
      have hr : specOf feed n' = d' := by rw [← hdn']; exact specOf_mem feed hfeed d' hd'
      have hd0' : d' ≠ [] := hne d' (by simp [hd'])
      rw [specOf_none py n' hp', hr]
      unfold marker
      rw [if_neg (by simp), if_neg (by simp), if_pos ⟨hd0', rfl⟩]
      refine ⟨⟨fun h => by simp at h, ?_⟩, ⟨fun h => by simp at h, ?_⟩, ⟨fun h => by simp at h, ?_⟩, ⟨fun _ => ⟨⟨d', hd', hdn'⟩, hp'⟩, fun _ => rfl⟩⟩
      · rintro ⟨x, hx, _, h1⟩; exact absurd h1 (hp' x hx)
      · rintro ⟨x, hx, _, _, h1, _, _⟩; exact absurd h1 (hp' x hx)
      · rintro ⟨⟨x, hx, h1⟩, _⟩; exact absurd h1 (hp' x hx)

/-- C150 (violated): constraints written with `~=`, `!=` or `>` are not cut off the name, so a changed constraint of such a package shows
up as one package added and another one missing, never as different. -/
theorem C150_other_operators (name v v' : List Char) (hn : NameLike name) (hv : NameLike v) (hv' : NameLike v') (hne : v ≠ v')
    (h0 : v ≠ []) (h0' : v' ≠ []) (hn0 : name ≠ []) :
    rows [name ++ "~=".toList ++ v] [name ++ "~=".toList ++ v'] =
      [(name ++ "~=".toList ++ v, .added, name ++ "~=".toList ++ v, []),
       (name ++ "~=".toList ++ v', .onlyFeedstock, [], name ++ "~=".toList ++ v')] := by
  have hpk : ∀ v, NameLike v → v ≠ [] → pkgName (name ++ "~=".toList ++ v) = name ++ "~=".toList ++ v := by
    intro v hv h0
    have e1 : before ">=" (name ++ "~=".toList ++ v) = name ++ "~=".toList ++ v :=
      before_none '>' ['='] _ ">=" rfl (by simp [hn.2.1, hv.2.1])
    have e2 : before "<" (name ++ "~=".toList ++ v) = name ++ "~=".toList ++ v :=
      before_none '<' [] _ "<" rfl (by simp [hn.1, hv.1])
    have e3 : before "==" (name ++ "~=".toList ++ v) = name ++ "~=".toList ++ v := by
      unfold before
      have : splitFirst "==".toList (name ++ "~=".toList ++ v) = none := by
        rw [List.append_assoc]
        show splitFirst ['=', '='] (name ++ ('~' :: '=' :: v)) = none
        rw [splitFirst_skip _ _ _ _ hn.2.2.1]
        have h1 : ¬ List.isPrefixOf ['=', '='] ('=' :: v) = true := by
          cases v with
          | nil => simp
          | cons d v => simp only [List.isPrefixOf_cons_cons]; intro hh; simp at hh; exact hv.2.2.1 (by simp [← hh])
        have h2 : ¬ List.isPrefixOf ['=', '='] ('~' :: '=' :: v) = true := by simp
        rw [splitFirst, if_neg h2, splitFirst, if_neg h1, splitFirst_none _ _ _ hv.2.2.1]; rfl
      rw [this]
    unfold pkgName
    rw [e1, e2, e3, strip_trimmed]
    constructor
    · intro c hc
      cases name with
      | nil => exact absurd rfl hn0
      | cons d name => exact hn.2.2.2.1 c (by simpa using hc)
    · intro c hc
      rw [List.getLast?_append] at hc
      rcases hl : v.getLast? with _ | d
      · rw [List.getLast?_eq_none_iff] at hl; exact absurd hl h0
      · rw [hl] at hc
        exact hv.2.2.2.2 c (by rw [hl]; simpa using hc)
  have h1 := hpk v hv h0
  have h2 := hpk v' hv' h0'
  have hd : name ++ "~=".toList ++ v ≠ name ++ "~=".toList ++ v' := fun h => hne (List.append_cancel_left h)
  have hx : name ++ "~=".toList ++ v ≠ [] := by cases name <;> simp
  have hx' : name ++ "~=".toList ++ v' ≠ [] := by cases name <;> simp
  generalize name ++ "~=".toList ++ v = x at *
  generalize name ++ "~=".toList ++ v' = y at *
  have hdd : ([x] ++ [y] : List (List Char)).dedup = [x, y] := by
    show [x, y].dedup = [x, y]
    rw [List.dedup_eq_self]; simp [hd]
  have s1 : specOf [x] x = x := by simp [specOf, h1]
  have s2 : specOf [y] x = [] := by simp [specOf, h2, Ne.symm hd]
  have s3 : specOf [x] y = [] := by simp [specOf, h1, hd]
  have s4 : specOf [y] y = y := by simp [specOf, h2]
  simp only [rows, List.map_cons, List.map_nil, h1, h2, hdd, s1, s2, s3, s4]
  simp [marker, hx, hx']

/-- C150: the packages compared are those named before the first `>=`, `<` or `==`. -/
theorem C150_names (name w rest : List Char) (hn : NameLike name) (hw : AllWs w) :
    pkgName (name ++ w) = name ∧ ∀ op ∈ [">=", "<", "=="], pkgName (name ++ w ++ op.toList ++ rest) = name := by
  obtain ⟨h1, h2, h3, h4⟩ := pkgName_spec name w rest hn hw
  refine ⟨h1, ?_⟩
  intro op hop
  simp only [List.mem_cons, List.not_mem_nil, or_false] at hop
  rcases hop with rfl | rfl | rfl
  · exact h2
  · exact h3
  · exact h4

example : rows ["numpy>=2.0".toList, "scipy>=1.13".toList] ["numpy>=1.26".toList, "astropy".toList] =
    [("scipy".toList, .added, "scipy>=1.13".toList, []), ("numpy".toList, .different, "numpy>=2.0".toList, "numpy>=1.26".toList),
     ("astropy".toList, .onlyFeedstock, [], "astropy".toList)] := by decide +kernel

/-! ### C151: release readiness -/

theorem splitFirst_isSome (op s : List Char) : (splitFirst op s).isSome = true ↔ op <:+: s := by
  have := splitFirst_none_iff op s
  cases h : splitFirst op s with
  | none => rw [h] at this; simpa using this
  | some p => rw [h] at this; simpa using this

/-- C151: the script ends with 0 exactly when the working directory is clean, the branch is readable and not a feature branch, the version
is known and not a development version, the changelog passes, tests, linting and build tool end with 0, and the remote is on GitHub;
otherwise the exit code counts the failed checks. -/
theorem C151_ready (r : Repo) :
    (readyExit r = 0 ↔ r.status = (0, "") ∧ (r.branch.1 = 0 ∧ ¬ "feature/".toList <+: r.branch.2.toList) ∧
      (∃ v, r.scm = some v ∧ ¬ "dev".toList <:+: v.toList) ∧ checkChangelog r.changelog = true ∧ r.tests.1 = 0 ∧ r.flake8.1 = 0 ∧
      r.build.1 = 0 ∧ r.remote.1 = 0 ∧ "github.com".toList <:+: r.remote.2.toList) ∧
    readyExit r = (checks r).countP (fun c => !c.2) ∧ readyExit r ≤ 8 := by
  have hb : checkBranch r.branch = true ↔ r.branch.1 = 0 ∧ ¬ "feature/".toList <+: r.branch.2.toList := by
    unfold checkBranch
    simp only [Bool.and_eq_true, decide_eq_true_eq, Bool.or_eq_true, Bool.not_eq_true', Bool.eq_false_iff, ne_eq, List.isPrefixOf_iff_prefix]
    constructor
    · rintro ⟨h1, h2 | h2⟩
      · refine ⟨h1, ?_⟩
        rcases h2 with h2 | h2 <;> rw [h2] <;> decide +kernel
      · exact ⟨h1, h2⟩
    · rintro ⟨h1, h2⟩; exact ⟨h1, Or.inr h2⟩
  have hs : checkScm r.scm = true ↔ ∃ v, r.scm = some v ∧ ¬ "dev".toList <:+: v.toList := by
    unfold checkScm
    cases r.scm with
    | none => simp
    | some v =>
      simp only [Option.isNone_iff_eq_none, splitFirst_none_iff, Option.some.injEq]
      exact ⟨fun h => ⟨v, rfl, h⟩, fun ⟨w, hw, h⟩ => by rw [hw]; exact h⟩
  have hg : checkGithub r.remote = true ↔ r.remote.1 = 0 ∧ "github.com".toList <:+: r.remote.2.toList := by
    unfold checkGithub
    simp only [Bool.and_eq_true, decide_eq_true_eq, splitFirst_isSome]
  have hst : checkStatus r.status = true ↔ r.status = (0, "") := by
    unfold checkStatus
    simp only [Bool.and_eq_true, decide_eq_true_eq, Prod.ext_iff]
  refine ⟨?_, ?_, ?_⟩
  · rw [← hb, ← hs, ← hg, ← hst]
    unfold readyExit
    rw [List.length_eq_zero_iff, List.filter_eq_nil_iff]
    simp only [checks, List.mem_cons, List.not_mem_nil, or_false, forall_eq_or_imp, forall_eq]
    simp only [Bool.not_eq_true', Bool.not_eq_false, decide_eq_true_eq]
    tauto
  · unfold readyExit; rw [List.countP_eq_length_filter]
  · unfold readyExit
    have hsplit : checks r = (checks r).take 8 ++ [("PyPI Tokens", true)] := rfl
    rw [hsplit, List.filter_append, List.length_append]
    have h1 := List.length_filter_le (fun c : String × Bool => !c.2) ((checks r).take 8)
    have h2 : ((checks r).take 8).length = 8 := rfl
    simp only [List.filter_cons, List.filter_nil]
    simpa [h2] using h1

/-- Specification: no proper tail of the text is also a beginning of it. -/
def NoBorder (p : List Char) : Prop := ∀ k < p.length, 0 < k → ¬ p.drop k <+: p

theorem no_early (p : List Char) (hp : NoBorder p) (x rest : List Char) (hx : ¬ p <:+: x) (hne : x ≠ []) : ¬ p <+: x ++ p ++ rest := by
  intro h
  by_cases hlen : p.length ≤ x.length
  · apply hx
    have : p <+: x := by
      rw [List.append_assoc] at h
      exact List.prefix_of_prefix_length_le h (List.prefix_append _ _) hlen
    exact this.isInfix
  · push Not at hlen
    apply hp x.length hlen (List.length_pos_of_ne_nil hne)
    obtain ⟨t, ht⟩ := h
    have h1 : (p ++ t).drop x.length = p ++ rest := by rw [ht, List.append_assoc, List.drop_left]
    rw [List.drop_append_of_le_length (by omega)] at h1
    exact List.prefix_of_prefix_length_le ⟨t, h1⟩ (List.prefix_append _ _) (by simp)

theorem splitFirst_first (p : List Char) (hp : NoBorder p) : ∀ (x rest : List Char), ¬ p <:+: x → splitFirst p (x ++ p ++ rest) = some (x, rest) := by
  intro x
  induction x with
  | nil => intro rest _; rw [List.nil_append]; exact splitFirst_here p rest
  | cons c x ih =>
    intro rest hx
    have h := no_early p hp (c :: x) rest hx (by simp)
    rw [List.cons_append, List.cons_append] at h
    rw [List.cons_append, List.cons_append, splitFirst, if_neg (by rw [List.isPrefixOf_iff_prefix]; exact h),
      ih rest (fun hh => hx (List.infix_cons_iff.mpr (Or.inr hh)))]
    rfl

def heading : List Char := "## [Unreleased]".toList

theorem search_cons (c : Char) (cs : List Char) (h : ¬ heading <+: c :: cs) : searchUnreleased (c :: cs) = searchUnreleased cs := by
  rw [searchUnreleased, if_neg]
  rw [List.isPrefixOf_iff_prefix]; exact h

theorem search_skip : ∀ (x rest : List Char), ¬ heading <:+: x → searchUnreleased (x ++ heading ++ rest) = searchUnreleased (heading ++ rest) := by
  have hb : NoBorder heading := by unfold NoBorder heading; decide +kernel
  intro x
  induction x with
  | nil => intro rest _; rfl
  | cons c x ih =>
    intro rest hx
    have h := no_early heading hb (c :: x) rest hx (by simp)
    rw [List.cons_append, List.cons_append] at h
    rw [List.cons_append, List.cons_append, search_cons _ _ h]
    exact ih rest (fun hh => hx (List.infix_cons_iff.mpr (Or.inr hh)))

theorem search_some : ∀ (s t : List Char), searchUnreleased s = some t → ∃ x y, s = x ++ heading ++ y ∧ "## [".toList <:+: y := by
  intro s
  induction s with
  | nil => intro t h; simp [searchUnreleased] at h
  | cons c cs ih =>
    intro t h
    by_cases hp : heading <+: c :: cs
    · obtain ⟨y, hy⟩ := hp
      have hdrop : (c :: cs).drop 15 = y := by
        rw [← hy]
        have : heading.length = 15 := by decide +kernel
        rw [← this, List.drop_left]
      rw [searchUnreleased, if_pos (by rw [List.isPrefixOf_iff_prefix]; exact ⟨y, hy⟩), hdrop] at h
      rcases hu : unreleasedText y with _ | u
      · rw [hu] at h
        obtain ⟨x, y', h1, h2⟩ := ih t h
        exact ⟨c :: x, y', by rw [h1]; simp, h2⟩
      · refine ⟨[], y, by rw [List.nil_append]; exact hy.symm, ?_⟩
        unfold unreleasedText at hu
        split at hu
        · rw [← splitFirst_isSome]
          cases hs : splitFirst "## [".toList y with
          | none => rw [hs] at hu; simp at hu
          | some _ => rfl
        · simp at hu
    · rw [search_cons _ _ hp] at h
      obtain ⟨x, y', h1, h2⟩ := ih t h
      exact ⟨c :: x, y', by rw [h1]; simp, h2⟩

/-- C151 (changelog): without the file or the heading the check fails; with a later section it passes exactly when nothing but white space
stands between the heading and that section. -/
theorem C151_changelog (pre w body rest : List Char) (hpre : ¬ "## [Unreleased]".toList <:+: pre) (hw : AllWs w) (hnl : '\n' ∈ w)
    (hbody : ¬ "## [".toList <:+: w ++ body) :
    checkChangelog none = false ∧ checkChangelog (some pre) = false ∧
    (checkChangelog (some (pre ++ "## [Unreleased]".toList ++ (w ++ body ++ "## [".toList ++ rest))) = true ↔ AllWs body) := by
  refine ⟨rfl, ?_, ?_⟩
  · unfold checkChangelog
    simp only []
    rw [if_pos]
    simp only [Option.isNone_iff_eq_none, splitFirst_none_iff]; exact hpre
  · have h1 : searchUnreleased (pre ++ heading ++ (w ++ body ++ "## [".toList ++ rest)) = some (w ++ body) := by
      rw [search_skip pre _ hpre]
      have hp : heading <+: heading ++ (w ++ body ++ "## [".toList ++ rest) := ⟨_, rfl⟩
      have hc : heading ++ (w ++ body ++ "## [".toList ++ rest) =
          '#' :: ("# [Unreleased]".toList ++ (w ++ body ++ "## [".toList ++ rest)) := rfl
      rw [hc] at hp ⊢
      rw [searchUnreleased, if_pos (by rw [List.isPrefixOf_iff_prefix]; exact hp)]
      have hdrop : ('#' :: ("# [Unreleased]".toList ++ (w ++ body ++ "## [".toList ++ rest))).drop 15 = w ++ body ++ "## [".toList ++ rest := by
        rw [← hc]
        have : heading.length = 15 := by decide +kernel
        rw [← this, List.drop_left]
      rw [hdrop]
      have hu : unreleasedText (w ++ body ++ "## [".toList ++ rest) = some (w ++ body) := by
        unfold unreleasedText
        rw [if_pos, splitFirst_first "## [".toList (by unfold NoBorder; decide +kernel) (w ++ body) rest hbody]
        · rfl
        · have : ∀ (u v : List Char), AllWs u → ∀ c ∈ u, c ∈ (u ++ v).takeWhile isWs := by
            intro u v
            induction u with
            | nil => intro _ c hc; simp at hc
            | cons d u ih =>
              intro hu c hc
              rw [List.cons_append, List.takeWhile_cons_of_pos (hu d (by simp))]
              rcases List.mem_cons.mp hc with rfl | hc
              · simp
              · exact List.mem_cons_of_mem _ (ih (fun x hx => hu x (by simp [hx])) c hc)
          rw [List.append_assoc, List.append_assoc]
          exact this w _ hw _ hnl
      rw [hu]
    unfold checkChangelog
    simp only []
    rw [if_neg]
    · rw [show "## [Unreleased]".toList = heading from rfl, h1]
      simp only [List.isEmpty_iff]
      constructor
      · intro h
        obtain ⟨w1, w2, g1, g2, g3, _⟩ := strip_decomp (w ++ body)
        rw [h, List.append_nil] at g3
        intro c hc
        have : c ∈ w1 ++ w2 := by rw [← g3]; simp [hc]
        rcases List.mem_append.mp this with hh | hh
        · exact g1 c hh
        · exact g2 c hh
      · intro h
        apply strip_ws
        intro c hc
        rcases List.mem_append.mp hc with hh | hh
        · exact hw c hh
        · exact h c hh
    · simp only [Option.isNone_iff_eq_none, splitFirst_none_iff, not_not]
      exact ⟨pre, _, rfl⟩

/-- C151 (violated): when the unreleased section is the last one in the file, whatever it contains passes; so does a heading line that has
text after the bracket. -/
theorem C151_last_section (pre tail : List Char) (hpre : ¬ "## [Unreleased]".toList <:+: pre) (htail : ¬ "## [".toList <:+: tail) :
    checkChangelog (some (pre ++ "## [Unreleased]".toList ++ tail)) = true := by
  have hb : NoBorder heading := by unfold NoBorder heading; decide +kernel
  unfold checkChangelog
  simp only []
  rw [if_neg]
  · rcases hs : searchUnreleased (pre ++ "## [Unreleased]".toList ++ tail) with _ | t
    · rfl
    · exfalso
      obtain ⟨x, y, hxy, hy⟩ := search_some _ _ hs
      apply htail
      have hlen : pre.length ≤ x.length := by
        by_contra hlt
        push Not at hlt
        have h1 : (pre ++ heading ++ tail).drop x.length = heading ++ y := by
          have : pre ++ heading ++ tail = x ++ heading ++ y := hxy
          rw [this, List.append_assoc, List.drop_left]
        rw [List.append_assoc, List.drop_append_of_le_length (by omega), ← List.append_assoc] at h1
        refine no_early heading hb (pre.drop x.length) tail ?_ ?_ ⟨y, h1.symm⟩
        · intro hin
          exact hpre (hin.trans (List.drop_suffix _ _).isInfix)
        · intro h0
          have := congrArg List.length h0
          simp at this
          omega
      have hsuf : y <:+ tail := by
        have e1 : y <:+ x ++ heading ++ y := List.suffix_append _ _
        have e2 : tail <:+ x ++ heading ++ y := by
          rw [← hxy]; exact List.suffix_append _ _
        apply List.suffix_of_suffix_length_le e1 e2
        have := congrArg List.length hxy
        simp only [List.length_append] at this
        have h15 : heading.length = "## [Unreleased]".toList.length := rfl
        omega
      exact hy.trans hsuf.isInfix
  · simp only [Option.isNone_iff_eq_none, splitFirst_none_iff, not_not]
    exact ⟨pre, tail, rfl⟩

example : checkChangelog (some "# Log\n## [Unreleased]\n\n## [1.0]\n- a".toList) = true := by decide +kernel
example : checkChangelog (some "# Log\n## [Unreleased]\n- new\n## [1.0]\n- a".toList) = false := by decide +kernel
example : checkChangelog (some "# Log\n## [Unreleased]\n- new\n".toList) = true := by decide +kernel
example : readyExit ⟨(0, ""), (0, "main"), some "1.0.0", some "## [Unreleased]\n## [1.0]".toList, (0, ""), (0, ""), (0, ""),
    (0, "https://github.com/blalterman/SolarWindPy")⟩ = 0 := by decide +kernel
example : readyExit ⟨(0, " M a.py"), (0, "feature/x"), none, none, (1, ""), (0, ""), (0, ""), (0, "gitlab")⟩ = 6 := by decide +kernel

end SW.Scripts
