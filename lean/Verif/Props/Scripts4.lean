import Verif.Props.Scripts3

/-!
# Release scripts: starting version, usage errors, exit codes (C88, C89, C149)
-/

namespace SW.Scripts

/-- C88 (reading a version): every version text is read back exactly, with or without the leading `v` and with or without one final
newline (the pattern ends with `$`). -/
theorem C88_read (a b c n : Nat) (t : Stage) :
    parseVersion (showRelease a b c) = .ok ⟨a, b, c, none⟩ ∧
    parseVersion (showRelease a b c ++ "\n") = .ok ⟨a, b, c, none⟩ ∧
    parseVersion (String.ofList (showRelease a b c).toList.tail) = .ok ⟨a, b, c, none⟩ ∧
    parseVersion (showPre a b c t n) = .ok ⟨a, b, c, some (t, some n)⟩ := by
  refine ⟨parseVersion_ok.mpr (parse_showRelease a b c), parseVersion_ok.mpr ?_, parseVersion_ok.mpr ?_,
    parseVersion_ok.mpr (parse_showPre a b c t n)⟩
  · rw [String.toList_append, showRelease_toList]
    have := parseBody_go a b c ['\n'] (by simp) none (by decide +kernel)
    simpa [dropV] using this
  · rw [String.toList_ofList, showRelease_toList, List.tail_cons]
    have hd : ∀ d : List Char, d.head? ≠ some 'v' → dropV d = d := by
      intro d hd
      rcases d with _ | ⟨x, d⟩
      · rfl
      · unfold dropV
        split
        · rename_i h; rw [h] at hd; simp at hd
        · rfl
    have h := parseBody_go a b c [] (by simp) none rfl
    rw [List.append_nil] at h
    rw [hd _ ?_, h]
    obtain ⟨h1, h2, _⟩ := digits_facts a
    rcases hh : Nat.toDigits 10 a with _ | ⟨x, d⟩
    · exact absurd hh h1
    · intro he
      simp only [List.cons_append, List.head?_cons, Option.some.injEq] at he
      have := h2 x (by rw [hh]; simp)
      rw [he] at this; revert this; decide +kernel

/-- C88 (where a bump starts): a version given on the command line is used, with a `v` put in front unless it has one; otherwise the first
of git's tags that starts with `v` and does not mention `compaction`; otherwise, and when git fails, v0.0.0. -/
theorem C88_start (s : String) (sorted : Option (List String)) :
    (s.toList.head? = some 'v' → currentVersion (some s) sorted = s) ∧
    (s ≠ "" → s.toList.head? ≠ some 'v' → (currentVersion (some s) sorted).toList = 'v' :: s.toList) ∧
    currentVersion (some "") sorted = currentVersion none sorted ∧
    currentVersion none none = "v0.0.0" ∧
    (∀ tags, (∀ t ∈ tags, t.toList.head? = some 'v' → "compaction".toList <:+: t.toList) →
      currentVersion none (some tags) = "v0.0.0") ∧
    (∀ pre t post, (∀ u ∈ pre, u.toList.head? = some 'v' → "compaction".toList <:+: u.toList) → t.toList.head? = some 'v' →
      ¬ "compaction".toList <:+: t.toList → currentVersion none (some (pre ++ t :: post)) = t) := by
  have hflt : ∀ tags : List String, (∀ t ∈ tags, t.toList.head? = some 'v' → "compaction".toList <:+: t.toList) →
      (tags.filter (fun t => !(stripWs t.toList).isEmpty)).filter
        (fun t => decide (t.toList.head? = some 'v') && (splitFirst "compaction".toList t.toList).isNone) = [] := by
    intro tags h
    rw [List.filter_eq_nil_iff]
    intro t ht
    have ht' := (List.mem_filter.mp ht).1
    simp only [Bool.and_eq_true, decide_eq_true_eq, Option.isNone_iff_eq_none, splitFirst_none_iff, not_and, not_not]
    exact h t ht'
  refine ⟨?_, ?_, ?_, rfl, ?_, ?_⟩
  · intro h
    have hne : s ≠ "" := by rintro rfl; simp at h
    simp [currentVersion, hne, h]
  · intro hne h
    simp [currentVersion, hne, h]
  · simp [currentVersion]
  · intro tags h
    simp only [currentVersion, latest]
    rw [hflt tags h]; rfl
  · intro pre t post h hv hc
    simp only [currentVersion, latest]
    rw [List.filter_append, List.filter_append, hflt pre h, List.nil_append]
    have hkeep : (!(stripWs t.toList).isEmpty) = true := by
      rcases ht : t.toList with _ | ⟨x, r⟩
      · rw [ht] at hv; simp at hv
      · rw [ht] at hv
        obtain rfl : x = 'v' := by simpa using hv
        obtain ⟨w1, w2, h1, h2, heq, _⟩ := strip_decomp ('v' :: r)
        rcases hs : stripWs ('v' :: r) with _ | ⟨y, q⟩
        · exfalso
          rw [hs, List.append_nil] at heq
          have hmem : 'v' ∈ w1 ++ w2 := by rw [← heq]; simp
          have hv' : isWs 'v' = false := by decide +kernel
          rcases List.mem_append.mp hmem with hm | hm
          · rw [h1 _ hm] at hv'; simp at hv'
          · rw [h2 _ hm] at hv'; simp at hv'
        · rfl
    have hk2 : (decide (t.toList.head? = some 'v') && (splitFirst "compaction".toList t.toList).isNone) = true := by
      simp only [Bool.and_eq_true, decide_eq_true_eq, Option.isNone_iff_eq_none, splitFirst_none_iff]
      exact ⟨hv, hc⟩
    rw [List.filter_cons, if_pos hkeep, List.filter_cons, if_pos hk2]
    rfl

example : currentVersion none (some ["compaction-1", "v9-compaction", "v1.2.3", "v1.2.2"]) = "v1.2.3" := by decide +kernel

/-- C88 (refusals): an unknown word ends with code 2, a dirty working directory with code 1, an unreadable current version with code 1, and
none of them touches a tag; the exit code is always 0, 1 or 2. -/
theorem C88_refused (kind : String) (dry : Bool) (fromV : Option String) (clean : Bool) (sorted : Option (List String)) (tags : List String) :
    (kind ∉ ["major", "minor", "patch", "rc", "beta", "alpha"] → bumpMain kind dry fromV clean sorted tags = (2, tags)) ∧
    (kind ∈ ["major", "minor", "patch", "rc", "beta", "alpha"] → bumpMain kind false fromV false sorted tags = (1, tags)) ∧
    (kind ∈ ["major", "minor", "patch", "rc", "beta", "alpha"] → (∀ v, parseVersion (currentVersion fromV sorted) ≠ .ok v) →
      bumpMain kind dry fromV clean sorted tags = (1, tags)) ∧
    (kind ∈ ["major", "minor", "patch", "rc", "beta", "alpha"] → (bumpMain kind dry fromV clean sorted tags).1 ≤ 1) := by
  obtain ⟨C, hC⟩ : ∃ C, C = choices := ⟨_, rfl⟩
  rw [show ["major", "minor", "patch", "rc", "beta", "alpha"] = C from by rw [hC]; rfl]
  unfold bumpMain
  rw [← hC]
  refine ⟨fun h => ?_, fun h => ?_, fun h hv => ?_, fun h => ?_⟩
  · rw [if_pos h]
  · rw [if_neg (not_not.mpr h), if_pos (by simp)]
  · rw [if_neg (not_not.mpr h)]
    have hb : bump (currentVersion fromV sorted) kind = .error .valueError := (C88_components _ kind).2.2 hv
    by_cases hc : (!dry && !clean) = true
    · rw [if_pos hc]
    · rw [if_neg hc]; unfold release; rw [hb]
  · rw [if_neg (not_not.mpr h)]
    by_cases hc : (!dry && !clean) = true
    · rw [if_pos hc]
    · rw [if_neg hc]; unfold release
      rcases bump (currentVersion fromV sorted) kind with e | new
      · simp
      · simp only []
        split
        · split
          · simp
          · split <;> simp
        · simp

example : bumpMain "nightly" false (some "1.2.3") true none ["v1.2.3"] = (2, ["v1.2.3"]) := by decide +kernel
example : bumpMain "patch" false (some "one.two") true none ["v1.2.3"] = (1, ["v1.2.3"]) := by decide +kernel

/-- C89 (the version asked for): all leading `v`s are removed and nothing else. -/
theorem C89_normalized (k : Nat) (s : String) (h : s.toList.head? ≠ some 'v') :
    normalizeVersion (String.ofList (List.replicate k 'v') ++ s) = s := by
  unfold normalizeVersion
  have : (String.ofList (List.replicate k 'v') ++ s).toList.dropWhile (· = 'v') = s.toList := by
    rw [String.toList_append, String.toList_ofList]
    induction k with
    | zero =>
      rw [List.replicate_zero, List.nil_append]
      rcases hs : s.toList with _ | ⟨x, r⟩
      · rfl
      · rw [hs] at h
        have hx : x ≠ 'v' := by simpa using h
        simp [hx]
    | succ k ih => rw [List.replicate_succ, List.cons_append]; simpa using ih
  rw [this, String.ofList_toList]

example : normalizeVersion "vv1.2.3" = "1.2.3" := by decide +kernel

/-- C89 (exit code): a run that ends does so with 0 or 1, and with 0 exactly when it was allowed to look (a final version, or the check
switched off) and the wait found the version. -/
theorem C89_codes (arg : String) (noRc : Bool) (maxWait interval : ℚ) (sched : Nat → Attempt) (fuel : Nat) (code : Nat)
    (h : waitMain arg noRc maxWait interval sched fuel = some code) :
    (code = 0 ∨ code = 1) ∧
    (code = 0 ↔ ((noRc = true ∨ ∃ v, parseVersion (normalizeVersion arg) = .ok v ∧ v.pre = none) ∧
      ∃ w, wait (normalizeVersion arg) maxWait interval sched fuel = some w ∧ w.result = .ok true)) := by
  have hval : validateVersion (normalizeVersion arg) = true ↔ ∃ v, parseVersion (normalizeVersion arg) = .ok v ∧ v.pre = none := by
    simp only [parseVersion_ok]
    unfold validateVersion
    rcases parseBody (dropV (normalizeVersion arg).toList) with _ | v <;> simp
  unfold waitMain at h
  by_cases h1 : (!noRc && !validateVersion (normalizeVersion arg)) = true
  · rw [if_pos h1] at h
    obtain rfl : 1 = code := by simpa using h
    refine ⟨Or.inr rfl, ?_⟩
    simp only [Bool.and_eq_true, Bool.not_eq_true'] at h1
    rw [← hval, h1.1, h1.2]; simp
  · rw [if_neg h1] at h
    have hok : noRc = true ∨ ∃ v, parseVersion (normalizeVersion arg) = .ok v ∧ v.pre = none := by
      rw [← hval]
      cases noRc <;> simp_all
    rcases hw : wait (normalizeVersion arg) maxWait interval sched fuel with _ | w
    · rw [hw] at h; simp at h
    · rw [hw] at h
      simp only [Option.map_some, Option.some.injEq] at h
      have hres : w.result.toOption = some true ↔ w.result = .ok true := by
        cases hr : w.result with
        | error e => simp [Except.toOption]
        | ok b => simp [Except.toOption]
      by_cases hb : w.result = .ok true
      · rw [if_pos (hres.mpr hb)] at h
        subst h
        exact ⟨Or.inl rfl, by simp [hok, hb]⟩
      · rw [if_neg (fun hh => hb (hres.mp hh))] at h
        subst h
        exact ⟨Or.inr rfl, by simp [hb]⟩

/-- C149 (no file): nothing is created; only a reopened request counts as success. -/
theorem C149_no_file (n : Nat) (action : String) :
    (prMain n action none).2 = none ∧ ((prMain n action none).1 = 0 ↔ action = "reopened") ∧ (prMain n action none).1 ≤ 1 := by
  unfold prMain
  by_cases h : action = "reopened" <;> simp [h]

end SW.Scripts
