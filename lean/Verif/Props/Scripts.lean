import Verif.Scripts
import Verif.Props.Labels
import Mathlib.Tactic.Linarith
import Mathlib.Tactic.NormNum
import Mathlib.Tactic.Ring
import Mathlib.Algebra.Order.Field.Rat
import Mathlib.Algebra.Order.Archimedean.Basic
import Mathlib.Data.Rat.Floor

/-!
# Release scripts: version bump, waiting for the index (C88, C89)
-/

namespace SW.Scripts

/-! ### C88: bumping the version -/

/-- Specification: how far along a version is: alpha, beta, release candidate, release. -/
def rank (v : Ver) : Nat :=
  match v.pre with
  | some (.alpha, _) => 0
  | some (.beta, _) => 1
  | some (.rc, _) => 2
  | none => 3

/-- Specification: the pre-release number, 0 when not written. -/
def preNum (v : Ver) : Nat :=
  match v.pre with
  | some (_, some n) => n
  | _ => 0

/-- Specification: semantic-version order. -/
def SemLt (a b : Ver) : Prop :=
  a.major < b.major ∨ a.major = b.major ∧ (a.minor < b.minor ∨ a.minor = b.minor ∧ (a.patch < b.patch ∨ a.patch = b.patch ∧
    (rank a < rank b ∨ rank a = rank b ∧ preNum a < preNum b)))

/-- Specification: the version asked for by each word of the command line. -/
def intended (v : Ver) : List (String × Ver) := [
  ("major", ⟨v.major + 1, 0, 0, none⟩),
  ("minor", ⟨v.major, v.minor + 1, 0, none⟩),
  ("patch", ⟨v.major, v.minor, if v.pre = none then v.patch + 1 else v.patch, none⟩),
  ("rc", ⟨v.major, v.minor, if v.pre = none then v.patch + 1 else v.patch, some (.rc, some (if rank v = 2 then preNum v + 1 else 1))⟩),
  ("beta", ⟨v.major, v.minor, if v.pre = none then v.patch + 1 else v.patch, some (.beta, some (if rank v = 1 then preNum v + 1 else 1))⟩),
  ("alpha", ⟨v.major, v.minor, if v.pre = none then v.patch + 1 else v.patch, some (.alpha, some (if rank v = 0 then preNum v + 1 else 1))⟩)]

theorem digits_facts (n : Nat) : Nat.toDigits 10 n ≠ [] ∧ (∀ c ∈ Nat.toDigits 10 n, c.isDigit = true) ∧
    Nat.ofDigitChars 10 (Nat.toDigits 10 n) 0 = n :=
  ⟨Nat.toDigits_ne_nil, fun _ h => Nat.isDigit_of_mem_toDigits (by decide) (by decide) h, Nat.ofDigitChars_ten_toDigits⟩

theorem takeWhile_digits (d rest : List Char) (hd : ∀ c ∈ d, c.isDigit = true) (hr : ∀ c, rest.head? = some c → c.isDigit = false) :
    (d ++ rest).takeWhile Char.isDigit = d ∧ (d ++ rest).dropWhile Char.isDigit = rest := by
  induction d with
  | nil =>
    cases rest with
    | nil => simp
    | cons c r => simp [hr c rfl]
  | cons c d ih =>
    have h1 := hd c (by simp)
    have ⟨h2, h3⟩ := ih (fun x hx => hd x (by simp [hx]))
    constructor
    · simp [h1, h2]
    · simp [h1, h3]

theorem takeNum_show (n : Nat) (rest : List Char) (hr : ∀ c, rest.head? = some c → c.isDigit = false) :
    takeNum (Nat.toDigits 10 n ++ rest) = some (n, rest) := by
  obtain ⟨h1, h2, h3⟩ := digits_facts n
  obtain ⟨h4, h5⟩ := takeWhile_digits _ rest h2 hr
  unfold takeNum
  rw [h4, h5, if_neg h1, h3]

theorem toList_toString (n : Nat) : (toString n).toList = Nat.toDigits 10 n := by
  rw [Nat.toString_eq_ofList_toDigits, String.toList_ofList]

theorem showRelease_toList (a b c : Nat) :
    (showRelease a b c).toList = 'v' :: (Nat.toDigits 10 a ++ '.' :: (Nat.toDigits 10 b ++ '.' :: Nat.toDigits 10 c)) := by
  simp only [showRelease, String.toList_append, toList_toString]
  simp

theorem parseBody_go (a b c : Nat) (rest : List Char) (hr : ∀ d, rest.head? = some d → d.isDigit = false)
    (p : Option (Stage × Option Nat)) (hp : takePre rest = some p) :
    parseBody (Nat.toDigits 10 a ++ '.' :: (Nat.toDigits 10 b ++ '.' :: (Nat.toDigits 10 c ++ rest))) = some ⟨a, b, c, p⟩ := by
  unfold parseBody
  rw [takeNum_show _ _ (by simp)]
  simp only [Option.bind_eq_bind, Option.bind_some, takeLit, if_true]
  rw [takeNum_show _ _ (by simp)]
  simp only [Option.bind_some, if_true]
  rw [takeNum_show _ _ hr]
  simp [hp]

theorem parse_showRelease (a b c : Nat) : parseBody (dropV (showRelease a b c).toList) = some ⟨a, b, c, none⟩ := by
  rw [showRelease_toList]
  have := parseBody_go a b c [] (by simp) none rfl
  simpa [dropV] using this

theorem parse_showPre (a b c : Nat) (t : Stage) (n : Nat) :
    parseBody (dropV (showPre a b c t n).toList) = some ⟨a, b, c, some (t, some n)⟩ := by
  have hl : (showPre a b c t n).toList =
      'v' :: (Nat.toDigits 10 a ++ '.' :: (Nat.toDigits 10 b ++ '.' :: (Nat.toDigits 10 c ++ ('-' :: (t.text.toList ++ Nat.toDigits 10 n))))) := by
    simp only [showPre, String.toList_append, toList_toString, showRelease_toList]
    simp
  rw [hl]
  have hopt : takeOptNum (Nat.toDigits 10 n) = some (some n) := by
    obtain ⟨_, h2, _⟩ := digits_facts n
    have h5 := (takeWhile_digits _ [] h2 (by simp)).2
    have h6 := takeNum_show n [] (by simp)
    rw [List.append_nil] at h5 h6
    unfold takeOptNum
    rw [h5, h6]; rfl
  have hst : takeStage (t.text.toList ++ Nat.toDigits 10 n) = some (t, Nat.toDigits 10 n) := by
    cases t <;> simp [takeStage, Stage.text]
  have hpre : takePre ('-' :: (t.text.toList ++ Nat.toDigits 10 n)) = some (some (t, some n)) := by
    unfold takePre
    have : atEnd ('-' :: (t.text.toList ++ Nat.toDigits 10 n)) = false := by simp [atEnd]
    rw [this]
    simp [takeLit, hst, hopt]
  have := parseBody_go a b c _ (by simp) _ hpre
  simpa [dropV] using this

theorem relKey_eq (v : Ver) : relKey v = if v.patch ≠ 0 then [v.major, v.minor, v.patch] else if v.minor ≠ 0 then [v.major, v.minor]
    else if v.major ≠ 0 then [v.major] else [] := by
  unfold relKey
  by_cases h1 : v.patch = 0 <;> by_cases h2 : v.minor = 0 <;> by_cases h3 : v.major = 0 <;> simp [h1, h2, h3]

theorem preLt_iff (a b : Ver) : preLt a.pre b.pre = true ↔ (rank a < rank b ∨ rank a = rank b ∧ preNum a < preNum b) := by
  obtain ⟨_, _, _, pa⟩ := a
  obtain ⟨_, _, _, pb⟩ := b
  rcases pa with _ | ⟨s, n⟩ <;> rcases pb with _ | ⟨t, m⟩
  · simp [preLt, rank, preNum]
  · cases t <;> simp [preLt, rank]
  · cases s <;> simp [preLt, rank]
  · have hn : preNum ⟨0, 0, 0, some (s, n)⟩ = n.getD 0 := by cases n <;> rfl
    cases s <;> cases t <;> cases n <;> cases m <;> simp [preLt, rank, preNum, preLetter] <;> decide +kernel

/-- The comparison of `packaging` is semantic-version order. -/
theorem pkgLt_iff (a b : Ver) : pkgLt a b = true ↔ SemLt a b := by
  unfold pkgLt SemLt
  rw [← preLt_iff, relKey_eq, relKey_eq]
  by_cases a1 : a.patch = 0 <;> by_cases a2 : a.minor = 0 <;> by_cases a3 : a.major = 0 <;>
  by_cases b1 : b.patch = 0 <;> by_cases b2 : b.minor = 0 <;> by_cases b3 : b.major = 0 <;>
  simp [a1, a2, a3, b1, b2, b3, natsLt] <;> (try split_ifs) <;> (try simp_all) <;> omega

theorem parseVersion_ok {s : String} {v : Ver} : parseVersion s = .ok v ↔ parseBody (dropV s.toList) = some v := by
  unfold parseVersion
  cases parseBody (dropV s.toList) <;> simp

theorem bump_ok {cur : String} {v : Ver} (hv : parseVersion cur = .ok v) {kind : String} {w : Ver} (hk : (kind, w) ∈ intended v) :
    ∃ new, bump cur kind = .ok new ∧ parseVersion new = .ok w := by
  have hr : ∀ a b c, parseVersion (showRelease a b c) = .ok ⟨a, b, c, none⟩ := fun a b c => parseVersion_ok.mpr (parse_showRelease a b c)
  have hp : ∀ a b c t n, parseVersion (showPre a b c t n) = .ok ⟨a, b, c, some (t, some n)⟩ :=
    fun a b c t n => parseVersion_ok.mpr (parse_showPre a b c t n)
  have hpre : ∀ t : Stage, (∃ new, bumpPre v t = new ∧ parseVersion new = .ok
      ⟨v.major, v.minor, if v.pre = none then v.patch + 1 else v.patch,
        some (t, some (if v.pre.map Prod.fst = some t then preNum v + 1 else 1))⟩) := by
    intro t
    refine ⟨_, rfl, ?_⟩
    unfold bumpPre
    rcases hq : v.pre with _ | ⟨s, n⟩
    · simp [hp]
    · have hn : preNum v = n.getD 0 := by unfold preNum; rw [hq]; cases n <;> rfl
      by_cases hs : s = t
      · simp [hs, hp, hn]
      · simp [hs, hp]
  have hrank : ∀ t : Stage, (v.pre.map Prod.fst = some t) ↔ rank v = (match t with | .alpha => 0 | .beta => 1 | .rc => 2) := by
    intro t
    unfold rank
    rcases hq : v.pre with _ | ⟨s, n⟩
    · cases t <;> simp
    · cases s <;> cases t <;> simp
  unfold bump
  rw [hv]
  simp only [intended, List.mem_cons, Prod.mk.injEq, List.not_mem_nil, or_false] at hk
  rcases hk with ⟨rfl, rfl⟩ | ⟨rfl, rfl⟩ | ⟨rfl, rfl⟩ | ⟨rfl, rfl⟩ | ⟨rfl, rfl⟩ | ⟨rfl, rfl⟩
  · exact ⟨_, rfl, hr _ _ _⟩
  · exact ⟨_, rfl, hr _ _ _⟩
  · rcases hq : v.pre with _ | ⟨s, n⟩
    · refine ⟨showRelease v.major v.minor (v.patch + 1), by simp [bind, Except.bind, hq]; rfl, ?_⟩
      simp [hr]
    · refine ⟨showRelease v.major v.minor v.patch, by simp [bind, Except.bind, hq]; rfl, ?_⟩
      simp [hr]
  · obtain ⟨new, h1, h2⟩ := hpre .rc
    refine ⟨new, ?_, ?_⟩
    · subst h1; rfl
    · rw [h2]; simp only [hrank]
  · obtain ⟨new, h1, h2⟩ := hpre .beta
    refine ⟨new, ?_, ?_⟩
    · subst h1; rfl
    · rw [h2]; simp only [hrank]
  · obtain ⟨new, h1, h2⟩ := hpre .alpha
    refine ⟨new, ?_, ?_⟩
    · subst h1; rfl
    · rw [h2]; simp only [hrank]

/-- C88 (components): for every version the script can read and each of its six words, the string produced reads back as the intended
version; any other word, and any unreadable version, is refused. -/
theorem C88_components (cur kind : String) :
    (∀ v w, parseVersion cur = .ok v → (kind, w) ∈ intended v → ∃ new, bump cur kind = .ok new ∧ parseVersion new = .ok w) ∧
    (kind ∉ ["major", "minor", "patch", "rc", "beta", "alpha"] → bump cur kind = .error .valueError) ∧
    ((∀ v, parseVersion cur ≠ .ok v) → bump cur kind = .error .valueError) := by
  refine ⟨fun v w hv hk => bump_ok hv hk, ?_, ?_⟩
  · intro h
    simp only [List.mem_cons, List.not_mem_nil, or_false, not_or] at h
    obtain ⟨h1, h2, h3, h4, h5, h6⟩ := h
    unfold bump
    rcases hc : parseVersion cur with e | v
    · have : e = .valueError := by
        unfold parseVersion at hc
        split at hc <;> simp_all
      subst this; rfl
    · simp only [bind, Except.bind, h1, h2, h3, if_false, stageOf, h4, h5, h6]; rfl
  · intro h
    unfold bump
    rcases hc : parseVersion cur with e | v
    · have : e = .valueError := by
        unfold parseVersion at hc
        split at hc <;> simp_all
      subst this; rfl
    · exact absurd hc (h v)

theorem validate_iff {cur new : String} {v w : Ver} (hv : parseVersion cur = .ok v) (hw : parseVersion new = .ok w) :
    validateProgression cur new = true ↔ SemLt v w := by
  rw [parseVersion_ok] at hv hw
  unfold validateProgression
  rw [hv, hw]
  exact pkgLt_iff v w

/-- Specification: the word asks for an earlier pre-release stage than the current one. -/
def EarlierStage (v : Ver) (kind : String) : Prop :=
  v.pre ≠ none ∧ (kind = "alpha" ∧ 0 < rank v ∨ kind = "beta" ∧ 1 < rank v)

/-- C88 (forward): the new version is later than the current one, and accepted, exactly when the word does not ask for an earlier
pre-release stage. -/
theorem C88_forward (cur kind : String) (v w : Ver) (hv : parseVersion cur = .ok v) (hk : (kind, w) ∈ intended v) :
    (SemLt v w ↔ ¬ EarlierStage v kind) ∧
    (∀ new, bump cur kind = .ok new → (validateProgression cur new = true ↔ ¬ EarlierStage v kind)) := by
  have key : SemLt v w ↔ ¬ EarlierStage v kind := by
    obtain ⟨a, b, c, p⟩ := v
    simp only [intended, List.mem_cons, Prod.mk.injEq, List.not_mem_nil, or_false] at hk
    rcases hk with ⟨rfl, rfl⟩ | ⟨rfl, rfl⟩ | ⟨rfl, rfl⟩ | ⟨rfl, rfl⟩ | ⟨rfl, rfl⟩ | ⟨rfl, rfl⟩ <;>
    rcases p with _ | ⟨s, _ | n⟩ <;> (try cases s) <;> simp [SemLt, EarlierStage, rank, preNum]
  refine ⟨key, ?_⟩
  intro new hn
  obtain ⟨new', h1, h2⟩ := bump_ok hv hk
  rw [hn] at h1
  obtain rfl : new = new' := by simpa using h1
  rw [validate_iff hv h2]; exact key

/-- C88 (tags): whatever the state of the repository, the script adds at most one tag, only without `--dry-run`, only on a clean working
directory, and only when that tag is later in semantic-version order than the version it started from and did not exist; in every other
case the tags are untouched, and only a run that ends with 0 can add one. -/
theorem C88_tags (kind : String) (dry : Bool) (fromV : Option String) (clean : Bool) (sorted : Option (List String)) (tags : List String) :
    (bumpMain kind dry fromV clean sorted tags).2 = tags ∨
    (dry = false ∧ clean = true ∧ (bumpMain kind dry fromV clean sorted tags).1 = 0 ∧
      ∃ new v w, (bumpMain kind dry fromV clean sorted tags).2 = new :: tags ∧ new ∉ tags ∧
        parseVersion (currentVersion fromV sorted) = .ok v ∧ parseVersion new = .ok w ∧ (kind, w) ∈ intended v ∧ SemLt v w) := by
  unfold bumpMain
  by_cases hk : kind ∈ choices
  · rw [if_neg (not_not.mpr hk)]
    by_cases hc : (!dry && !clean) = true
    · rw [if_pos hc]; exact Or.inl rfl
    · rw [if_neg hc]
      obtain ⟨cur, hcur⟩ : ∃ cur, cur = currentVersion fromV sorted := ⟨_, rfl⟩
      rw [← hcur]
      unfold release
      rcases hb : bump cur kind with e | new
      · exact Or.inl rfl
      · simp only []
        by_cases hval : validateProgression cur new = true
        · rw [if_pos hval]
          rcases hp : parseVersion new with e | w
          · exact Or.inl rfl
          · simp only []
            unfold createTag
            cases dry with
            | true => left; simp
            | false =>
              by_cases hm : new ∈ tags
              · left; simp [hm]
              · right
                have hcl : clean = true := by simpa using hc
                rcases hv : parseVersion cur with e | v
                · exfalso
                  rw [(C88_components cur kind).2.2 (by simp [hv])] at hb
                  simp at hb
                have hw : ∃ w', (kind, w') ∈ intended v := by
                  simp only [choices, List.mem_cons, List.not_mem_nil, or_false] at hk
                  rcases hk with rfl | rfl | rfl | rfl | rfl | rfl <;> simp [intended]
                obtain ⟨w', hw'⟩ := hw
                obtain ⟨new', h1, h2⟩ := bump_ok hv hw'
                rw [hb] at h1
                obtain rfl : new = new' := by simpa using h1
                rw [hp] at h2
                obtain rfl : w = w' := by simpa using h2
                refine ⟨rfl, hcl, by simp [hm], new, v, w, by simp [hm], hm, rfl, hp, hw', (validate_iff hv hp).mp hval⟩
        · rw [if_neg hval]; exact Or.inl rfl
  · rw [if_pos hk]; exact Or.inl rfl

/-- C88 (liveness): on a clean repository without `--dry-run` the script does create the tag whenever the current version is readable, the
word does not ask for an earlier stage, and the tag is free. -/
theorem C88_created (kind : String) (fromV : Option String) (sorted : Option (List String)) (tags : List String) (v w : Ver) (new : String)
    (hv : parseVersion (currentVersion fromV sorted) = .ok v) (hk : (kind, w) ∈ intended v) (he : ¬ EarlierStage v kind)
    (hn : bump (currentVersion fromV sorted) kind = .ok new) (hfree : new ∉ tags) :
    bumpMain kind false fromV true sorted tags = (0, new :: tags) := by
  have hc : kind ∈ choices := by
    simp only [intended, List.mem_cons, Prod.mk.injEq, List.not_mem_nil, or_false] at hk
    rcases hk with ⟨rfl, _⟩ | ⟨rfl, _⟩ | ⟨rfl, _⟩ | ⟨rfl, _⟩ | ⟨rfl, _⟩ | ⟨rfl, _⟩ <;> simp [choices]
  obtain ⟨new', h1, h2⟩ := bump_ok hv hk
  rw [hn] at h1
  obtain rfl : new = new' := by simpa using h1
  have hval := ((C88_forward _ kind v w hv hk).2 new hn).mpr he
  unfold bumpMain
  rw [if_neg (not_not.mpr hc)]
  simp [release, hn, hval, h2, createTag, hfree]

example : bump "v1.2.3-rc" "rc" = .ok "v1.2.3-rc1" := by decide +kernel
example : bumpMain "rc" false (some "1.2.3") true none ["v1.2.3"] = (0, ["v1.2.4-rc1", "v1.2.3"]) := by decide +kernel
example : bumpMain "alpha" false (some "1.2.3-rc2") true none [] = (1, []) := by decide +kernel
example : ∃ v, parseVersion "v1.2.3-rc2" = .ok v ∧ EarlierStage v "alpha" :=
  ⟨⟨1, 2, 3, some (.rc, some 2)⟩, by decide +kernel, by simp [EarlierStage, rank]⟩

/-- C144 (violated): git's version sort puts a text before every longer text that starts with it, so once `r` is released after a
pre-release `r-rcN` the script never takes `r` for the latest version: with any descending order of that kind the automatic base is not
`r`.  `le` is git's order. -/
theorem C144_latest_is_stale (le : String → String → Prop) (hanti : ∀ a b, le a b → le b a → a = b)
    (hpre : ∀ a b : String, a.toList <+: b.toList → le a b) (sorted : List String) (hs : sorted.Pairwise (fun a b => le b a))
    (r rc : String) (hrc : rc ∈ sorted) (hlong : r.toList <+: rc.toList) (hne : r ≠ rc)
    (hv : rc.toList.head? = some 'v') (hcomp : splitFirst "compaction".toList rc.toList = none)
    (hns : stripWs rc.toList ≠ []) :
    latest (some sorted) ≠ some r := by
  intro h
  unfold latest at h
  simp only [List.filter_filter] at h
  generalize hp : (fun t : String => (decide (t.toList.head? = some 'v') && (splitFirst "compaction".toList t.toList).isNone) &&
    !(stripWs t.toList).isEmpty) = p at h
  have hrcp : p rc = true := by
    rw [← hp]
    simp [hv, hns]
    simpa using hcomp
  have hmem : rc ∈ sorted.filter p := List.mem_filter.mpr ⟨hrc, hrcp⟩
  have hsf := hs.filter p
  rcases hf : sorted.filter p with _ | ⟨x, xs⟩
  · rw [hf] at hmem; simp at hmem
  · rw [hf] at h hmem hsf
    simp only [List.head?_cons, Option.some.injEq] at h
    subst h
    rcases List.mem_cons.mp hmem with rfl | hm
    · exact hne rfl
    · exact hne (hanti _ _ (hpre _ _ hlong) ((List.pairwise_cons.mp hsf).1 _ hm))

/-- C144 (violated, consequence): from that stale base a `patch` bump asks for the release that already exists, so the script ends with
an error and creates nothing. -/
theorem C144_patch_stuck (a b c n : Nat) (t : Stage) (tags : List String) (hmem : showRelease a b c ∈ tags) (sorted : List String)
    (hl : latest (some sorted) = some (showPre a b c t n)) :
    bumpMain "patch" false none true (some sorted) tags = (1, tags) := by
  have hc : currentVersion none (some sorted) = showPre a b c t n := by simp [currentVersion, hl]
  have hv : parseVersion (showPre a b c t n) = .ok ⟨a, b, c, some (t, some n)⟩ := parseVersion_ok.mpr (parse_showPre a b c t n)
  have hb : bump (showPre a b c t n) "patch" = .ok (showRelease a b c) := by
    unfold bump; rw [hv]; rfl
  have hr : parseVersion (showRelease a b c) = .ok ⟨a, b, c, none⟩ := parseVersion_ok.mpr (parse_showRelease a b c)
  have hval : validateProgression (showPre a b c t n) (showRelease a b c) = true := by
    rw [validate_iff hv hr]
    cases t <;> simp [SemLt, rank]
  unfold bumpMain
  rw [if_neg (by simp [choices])]
  simp [hc, release, hb, hval, hr, createTag, hmem]

example : bumpMain "patch" false none true (some ["v1.0.0-rc1", "v1.0.0"]) ["v1.0.0-rc1", "v1.0.0"] =
    (1, ["v1.0.0-rc1", "v1.0.0"]) := by decide +kernel

/-! ### C89: the waiting loop -/

/-- Specification: requests and oversleeping take no negative time. -/
def Forward (sched : Nat → Attempt) : Prop := ∀ k, 0 ≤ (sched k).dur ∧ 0 ≤ (sched k).over

theorem waitLoop_terminates (want : String) (maxWait m : ℚ) (sched : Nat → Attempt) (hs : Forward sched) (hm : 0 < m) (hm60 : m ≤ 60) :
    ∀ (fuel k : Nat) (t i : ℚ), m ≤ i → maxWait ≤ t + fuel * m → ∃ w, waitLoop want maxWait sched (fuel + 1) k t i = some w := by
  intro fuel
  induction fuel with
  | zero =>
    intro k t i _ h
    have : ¬ t < maxWait := by simp at h; linarith
    exact ⟨_, by rw [waitLoop, if_neg this]⟩
  | succ fuel ih =>
    intro k t i hi h
    rw [waitLoop]
    by_cases h1 : t < maxWait
    · rw [if_pos h1]
      by_cases h2 : checkAvailable want (sched k).reply = true
      · rw [if_pos h2]; exact ⟨_, rfl⟩
      · rw [if_neg h2]
        by_cases h3 : maxWait - (t + (sched k).dur) ≤ 0
        · rw [if_pos h3]; exact ⟨_, rfl⟩
        · rw [if_neg h3]
          by_cases h4 : min i (maxWait - (t + (sched k).dur)) < 0
          · rw [if_pos h4]; exact ⟨_, rfl⟩
          · rw [if_neg h4]
            obtain ⟨hd, ho⟩ := hs k
            have hi' : m ≤ min (i * (3 / 2)) 60 := le_min (by linarith) hm60
            obtain ⟨w, hw⟩ : ∃ w, waitLoop want maxWait sched (fuel + 1) (k + 1)
                (t + (sched k).dur + min i (maxWait - (t + (sched k).dur)) + (sched k).over) (min (i * (3 / 2)) 60) = some w := by
              rcases le_total i (maxWait - (t + (sched k).dur)) with hle | hle
              · apply ih _ _ _ hi'
                rw [min_eq_left hle]
                push_cast at h
                linarith
              · apply ih _ _ _ hi'
                rw [min_eq_right hle]
                have : 0 ≤ (fuel : ℚ) * m := by positivity
                linarith
            rw [hw]; exact ⟨_, rfl⟩
    · rw [if_neg h1]; exact ⟨_, rfl⟩

/-- C89 (stops): with a positive interval the loop ends after a number of requests bounded in terms of the time allowed and the interval
alone, for every behaviour of the index and of the clock. -/
theorem C89_stops (want : String) (maxWait interval : ℚ) (hi : 0 < interval) :
    ∃ N, ∀ sched, Forward sched → ∃ w, wait want maxWait interval sched N = some w := by
  obtain ⟨m, hm⟩ : ∃ m, m = min interval 60 := ⟨_, rfl⟩
  have hmpos : 0 < m := by rw [hm]; exact lt_min hi (by norm_num)
  obtain ⟨n, hn⟩ := exists_nat_ge (maxWait / m)
  refine ⟨n + 1, fun sched hs => ?_⟩
  apply waitLoop_terminates want maxWait m sched hs hmpos (by rw [hm]; exact min_le_right _ _) n 0 0 interval (by rw [hm]; exact min_le_left _ _)
  rw [div_le_iff₀ hmpos] at hn
  linarith

theorem waitLoop_props (want : String) (maxWait : ℚ) (sched : Nat → Attempt) :
    ∀ (fuel k : Nat) (t i : ℚ) (w : Waited), waitLoop want maxWait sched fuel k t i = some w →
      (∀ s ∈ w.sleeps, 0 ≤ s.2 ∧ s.1 + s.2 ≤ maxWait) ∧
      (∀ s ∈ w.sleeps, s.2 ≤ max i 60) ∧
      (w.result = .ok true ↔ ∃ j < w.checks, checkAvailable want (sched (k + j)).reply = true) ∧
      (w.result = .ok true → 0 < w.checks ∧ checkAvailable want (sched (k + (w.checks - 1))).reply = true) ∧
      (w.result = .ok false → (∀ j < w.checks, checkAvailable want (sched (k + j)).reply = false)) := by
  intro fuel
  induction fuel with
  | zero =>
    intro k t i w h
    rw [waitLoop] at h
    split at h
    · simp at h
    · simp only [Option.some.injEq] at h; subst h; simp
  | succ fuel ih =>
    intro k t i w h
    rw [waitLoop] at h
    by_cases h1 : t < maxWait
    · rw [if_pos h1] at h
      by_cases h2 : checkAvailable want (sched k).reply = true
      · rw [if_pos h2] at h
        simp only [Option.some.injEq] at h; subst h; simp [h2]
      · rw [if_neg h2] at h
        by_cases h3 : maxWait - (t + (sched k).dur) ≤ 0
        · rw [if_pos h3] at h
          simp only [Option.some.injEq] at h; subst h; simp [h2]
        · rw [if_neg h3] at h
          by_cases h4 : min i (maxWait - (t + (sched k).dur)) < 0
          · rw [if_pos h4] at h
            simp only [Option.some.injEq] at h; subst h; simp [h2]
          · rw [if_neg h4] at h
            rcases hw : waitLoop want maxWait sched fuel (k + 1)
                (t + (sched k).dur + min i (maxWait - (t + (sched k).dur)) + (sched k).over) (min (i * (3 / 2)) 60) with _ | w'
            · rw [hw] at h; simp at h
            · rw [hw] at h
              simp only [Option.map_some, Option.some.injEq] at h
              obtain ⟨p1, p2, p3, p4, p5⟩ := ih _ _ _ _ hw
              subst h
              have hsh : ∀ j, sched (k + 1 + j) = sched (k + (j + 1)) := fun j => by congr 1; omega
              refine ⟨?_, ?_, ?_, ?_, ?_⟩
              · intro s hs
                rcases List.mem_cons.mp hs with rfl | hs
                · refine ⟨le_of_not_gt h4, ?_⟩
                  have := min_le_right i (maxWait - (t + (sched k).dur))
                  simp only
                  linarith
                · exact p1 s hs
              · intro s hs
                rcases List.mem_cons.mp hs with rfl | hs
                · exact le_trans (min_le_left _ _) (le_max_left _ _)
                · have := p2 s hs
                  have h60 : max (min (i * (3 / 2)) 60) 60 ≤ max i 60 := max_le (le_trans (min_le_right _ _) (le_max_right _ _)) (le_max_right _ _)
                  exact le_trans this h60
              · show w'.result = .ok true ↔ ∃ j < w'.checks + 1, _
                rw [p3]
                constructor
                · rintro ⟨j, hj, hc⟩
                  exact ⟨j + 1, by omega, by rwa [hsh] at hc⟩
                · rintro ⟨j, hj, hc⟩
                  cases j with
                  | zero => exact absurd hc h2
                  | succ j => exact ⟨j, by omega, by rwa [hsh]⟩
              · intro hr
                obtain ⟨q1, q2⟩ := p4 hr
                refine ⟨Nat.succ_pos _, ?_⟩
                show checkAvailable want (sched (k + (w'.checks + 1 - 1))).reply = true
                rw [hsh] at q2
                rwa [show w'.checks - 1 + 1 = w'.checks + 1 - 1 by omega] at q2
              · intro hr j hj
                cases j with
                | zero => simpa using h2
                | succ j =>
                  have := p5 hr j (by have : (Waited.push (t + (sched k).dur, min i (maxWait - (t + (sched k).dur))) w').checks = w'.checks + 1 := rfl; omega)
                  rwa [hsh] at this
    · rw [if_neg h1] at h
      simp only [Option.some.injEq] at h; subst h; simp

/-- C89 (sleeps and result): every sleep is non-negative, at most the larger of the initial interval and 60 s, and planned to end by the
deadline; the answer is `True` exactly when one of the requests made found the version, and it was the last one. -/
theorem C89_sleeps (want : String) (maxWait interval : ℚ) (sched : Nat → Attempt) (fuel : Nat) (w : Waited)
    (h : wait want maxWait interval sched fuel = some w) :
    (∀ s ∈ w.sleeps, 0 ≤ s.2 ∧ s.1 + s.2 ≤ maxWait ∧ s.2 ≤ max interval 60) ∧
    (w.result = .ok true ↔ ∃ j < w.checks, checkAvailable want (sched j).reply = true) ∧
    (w.result = .ok true → 0 < w.checks ∧ checkAvailable want (sched (w.checks - 1)).reply = true) := by
  obtain ⟨p1, p2, p3, p4, _⟩ := waitLoop_props want maxWait sched fuel 0 0 interval w h
  simp only [Nat.zero_add] at p3 p4
  exact ⟨fun s hs => ⟨(p1 s hs).1, (p1 s hs).2, p2 s hs⟩, p3, p4⟩

/-- C89 (what counts as found): a request counts only with status 200 and exactly the version text asked for; a failed request never
does. -/
theorem C89_found (want : String) (r : Reply) :
    checkAvailable want r = true ↔ r = .status 200 (some want) := by
  cases r with
  | failed => simp [checkAvailable]
  | status c v => simp [checkAvailable]

/-- C89 (exit code): the script ends with 0 only if the version is final (or the check is switched off) and a request found it. -/
theorem C89_exit (arg : String) (noRc : Bool) (maxWait interval : ℚ) (sched : Nat → Attempt) (fuel : Nat)
    (h : waitMain arg noRc maxWait interval sched fuel = some 0) :
    (noRc = true ∨ ∃ v, parseVersion (normalizeVersion arg) = .ok v ∧ v.pre = none) ∧
    ∃ j, (sched j).reply = .status 200 (some (normalizeVersion arg)) := by
  unfold waitMain at h
  by_cases h1 : (!noRc && !validateVersion (normalizeVersion arg)) = true
  · rw [if_pos h1] at h; simp at h
  · rw [if_neg h1] at h
    constructor
    · cases noRc with
      | true => exact Or.inl rfl
      | false =>
        right
        simp only [Bool.not_false, Bool.true_and, Bool.not_eq_true', Bool.not_eq_false] at h1
        unfold validateVersion at h1
        rcases hp : parseBody (dropV (normalizeVersion arg).toList) with _ | v
        · rw [hp] at h1; simp at h1
        · rw [hp] at h1
          exact ⟨v, parseVersion_ok.mpr hp, by simpa using h1⟩
    · rcases hw : wait (normalizeVersion arg) maxWait interval sched fuel with _ | w
      · rw [hw] at h; simp at h
      · rw [hw] at h
        simp only [Option.map_some, Option.some.injEq] at h
        have hres : w.result = .ok true := by
          by_contra hne
          rw [if_neg] at h
          · simp at h
          · intro hh
            apply hne
            cases hr : w.result with
            | error e => rw [hr] at hh; simp [Except.toOption] at hh
            | ok b => rw [hr] at hh; simp [Except.toOption] at hh; rw [hh]
        obtain ⟨j, _, hj⟩ := (C89_sleeps _ _ _ _ _ _ hw).2.1.mp hres
        exact ⟨j, (C89_found _ _).mp hj⟩

/-- C145 (violated): after the last sleep no request is made: with an interval at least as long as the time allowed the index is asked
exactly once, so a version published at any later moment before the deadline is reported as not available. -/
theorem C145_no_final_check (want : String) (maxWait interval : ℚ) (h0 : 0 < maxWait) (hi : maxWait ≤ interval) (sched : Nat → Attempt)
    (hs : Forward sched) (hfirst : checkAvailable want (sched 0).reply = false) :
    ∃ w, wait want maxWait interval sched 2 = some w ∧ w.result = .ok false ∧ w.checks = 1 := by
  unfold wait
  rw [waitLoop, if_pos h0, if_neg (by simp [hfirst])]
  by_cases h3 : maxWait - (0 + (sched 0).dur) ≤ 0
  · rw [if_pos h3]; exact ⟨_, rfl, rfl, rfl⟩
  · rw [if_neg h3]
    obtain ⟨hd, ho⟩ := hs 0
    have hmin : min interval (maxWait - (0 + (sched 0).dur)) = maxWait - (0 + (sched 0).dur) := min_eq_right (by linarith)
    rw [hmin, if_neg (by linarith)]
    rw [waitLoop, if_neg (by linarith)]
    exact ⟨_, rfl, rfl, rfl⟩

/-- C145 (violated): with interval 0 the script asks the index without pause: if requests are answered at once and without success it
never ends. -/
theorem C145_zero_interval (want : String) (maxWait : ℚ) (h0 : 0 < maxWait) (sched : Nat → Attempt)
    (hs : ∀ k, (sched k).dur = 0 ∧ (sched k).over = 0) (hno : ∀ k, checkAvailable want (sched k).reply = false) (fuel : Nat) :
    wait want maxWait 0 sched fuel = none := by
  unfold wait
  suffices h : ∀ (fuel k : Nat), waitLoop want maxWait sched fuel k 0 0 = none from h fuel 0
  intro fuel
  induction fuel with
  | zero => intro k; rw [waitLoop, if_pos h0]
  | succ fuel ih =>
    intro k
    obtain ⟨hd, ho⟩ := hs k
    rw [waitLoop, if_pos h0, if_neg (by simp [hno k]), hd, ho, if_neg (by linarith)]
    have hm : min 0 (maxWait - (0 + 0)) = 0 := min_eq_left (by linarith)
    rw [hm, if_neg (lt_irrefl _)]
    have : min ((0 : ℚ) * (3 / 2)) 60 = 0 := by norm_num
    rw [this]
    simp [ih]

/-- C145 (violated): a negative interval ends the first unsuccessful attempt with a `ValueError` from `time.sleep`. -/
theorem C145_negative_interval (want : String) (maxWait interval : ℚ) (h0 : 0 < maxWait) (hi : interval < 0) (sched : Nat → Attempt)
    (hno : checkAvailable want (sched 0).reply = false) (hd : (sched 0).dur < maxWait) :
    ∃ w, wait want maxWait interval sched 1 = some w ∧ w.result = .error .valueError := by
  unfold wait
  rw [waitLoop, if_pos h0, if_neg (by simp [hno]), if_neg (by linarith), if_pos (lt_of_le_of_lt (min_le_left _ _) hi)]
  exact ⟨_, rfl, rfl⟩

/-- C145 (violated): the comparison is on the text, so a version that the index spells differently (`1.0.0-rc1` is `1.0.0rc1` there) is
never found, whatever the schedule. -/
theorem C145_spelling (want spelled : String) (hne : want ≠ spelled) (maxWait interval : ℚ) (sched : Nat → Attempt)
    (hs : ∀ k, (sched k).reply = .failed ∨ ∃ c, (sched k).reply = .status c (some spelled)) (fuel : Nat) (w : Waited)
    (h : wait want maxWait interval sched fuel = some w) : w.result ≠ .ok true := by
  intro hr
  obtain ⟨j, _, hj⟩ := (C89_sleeps _ _ _ _ _ _ h).2.1.mp hr
  rw [C89_found] at hj
  rcases hs j with h1 | ⟨c, h1⟩
  · rw [h1] at hj; simp at hj
  · rw [h1] at hj
    simp only [Reply.status.injEq, Option.some.injEq] at hj
    exact hne hj.2.symm

/-- an index that has the version from the third request on, each request taking one second -/
def sampleSched : Nat → Attempt := fun k => ⟨if k < 2 then .status 404 none else .status 200 (some "0.1.5"), 1, 0⟩

example : (wait "0.1.5" 300 30 sampleSched 5).map (fun w => (w.result.toOption, w.checks, w.sleeps)) =
    some (some true, 3, [(1, 30), (32, 45)]) := by decide +kernel
example : Forward sampleSched := fun _ => ⟨by simp [sampleSched], by simp [sampleSched]⟩
example : waitMain "v0.1.5" false 300 30 sampleSched 5 = some 0 := by decide +kernel
example : waitMain "v0.1.5-rc1" false 300 30 sampleSched 5 = some 1 := by decide +kernel

end SW.Scripts
