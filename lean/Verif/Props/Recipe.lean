import Verif.Recipe
import Verif.Props.Scripts3

/-!
# C247, C248: the recipe written, updated and read back; the dependency list of the project file
-/

namespace SW
namespace Recipe

open Scripts

/-- Specification: a text on one line. -/
def OneLine (s : Txt) : Prop := '\n' ∉ s

/-- Specification: a dependency as people write it: not blank, on one line, without white space around it, not a Jinja expression. -/
def CleanDep (d : Txt) : Prop := d ≠ [] ∧ OneLine d ∧ Trimmed d ∧ ¬ "{{".toList <+: d

theorem lines_oneLine {name ver sha : Txt} {deps : List Txt} (h1 : OneLine name) (h2 : OneLine ver) (h3 : OneLine sha)
    (h4 : ∀ d ∈ deps, OneLine d) : ∀ l ∈ recipeLines name ver sha deps, '\n' ∉ l := by
  intro l hl
  unfold recipeLines at hl
  unfold OneLine at *
  rcases List.mem_append.mp hl with hl | hl
  · rcases List.mem_append.mp hl with hl | hl
    · simp only [List.mem_cons, List.not_mem_nil, or_false] at hl
      rcases hl with rfl | rfl | rfl | rfl | rfl | rfl | rfl | rfl | rfl | rfl | rfl | rfl | rfl | rfl | rfl | rfl | rfl | rfl | rfl | rfl | rfl
      all_goals first
        | (simp only [List.mem_append, not_or]; refine ⟨⟨by decide +kernel, by assumption⟩, by decide +kernel⟩)
        | (simp only [List.mem_append, not_or]; refine ⟨by decide +kernel, by assumption⟩)
        | decide +kernel
    · obtain ⟨d, hd, rfl⟩ := List.mem_map.mp hl
      unfold depLine
      rw [List.mem_append, not_or]
      refine ⟨by decide +kernel, ?_⟩
      rcases List.mem_cons.mp hd with rfl | hd
      · decide +kernel
      · exact h4 d hd
  · simp only [List.mem_cons, List.not_mem_nil, or_false] at hl
    rcases hl with rfl | rfl | rfl | rfl | rfl | rfl | rfl | rfl | rfl | rfl | rfl | rfl | rfl | rfl | rfl
    all_goals first
      | (simp only [List.mem_append, not_or]; refine ⟨by decide +kernel, by assumption⟩)
      | decide +kernel

theorem lines_ne {name ver sha : Txt} {deps : List Txt} : recipeLines name ver sha deps ≠ [] := by simp [recipeLines]

theorem split_render {name ver sha : Txt} {deps : List Txt} (h1 : OneLine name) (h2 : OneLine ver) (h3 : OneLine sha)
    (h4 : ∀ d ∈ deps, OneLine d) : Chars.split '\n' (render name ver sha deps) = recipeLines name ver sha deps :=
  Chars.split_join _ _ lines_ne (lines_oneLine h1 h2 h3 h4)

/-- a line whose first character other than white space is neither `{` nor `s` stays -/
theorem metaLine_keep (ver sha : String) (w rest : Txt) (a : Char) (hw : AllWs w) (ha : isWs a = false) (h1 : a ≠ '{') (h2 : a ≠ 's') :
    metaLine ver sha (w ++ a :: rest) = w ++ a :: rest := by
  apply (metaLine_spec ver sha _).2.2
  · rintro ⟨w', r', hw', h⟩
    have h' : w ++ a :: rest = w' ++ '{' :: ("% set version =".toList ++ r') := by simpa [List.append_assoc] using h
    exact h1 (first_nonws hw hw' ha (by decide +kernel) h')
  · rintro ⟨w', r', hw', h⟩
    have h' : w ++ a :: rest = w' ++ 's' :: ("ha256:".toList ++ r') := by simpa [List.append_assoc] using h
    exact h2 (first_nonws hw hw' ha (by decide +kernel) h')

theorem four_ws : AllWs [' ', ' ', ' ', ' '] := by
  intro c hc
  have : c = ' ' := by simpa using hc
  subst this; decide +kernel

theorem nl_ws : AllWs ['\n'] := by
  intro c hc
  obtain rfl : c = '\n' := by simpa using hc
  decide +kernel

theorem depLine_keep (ver sha : String) (d : Txt) : metaLine ver sha (depLine d) = depLine d := by
  have := metaLine_keep ver sha [' ', ' ', ' ', ' '] (' ' :: d) '-' four_ws (by decide +kernel) (by decide) (by decide)
  exact this

theorem nameLine_keep (ver sha : String) (n : Txt) :
    metaLine ver sha ("{% set name = \"".toList ++ n) = "{% set name = \"".toList ++ n := by
  apply (metaLine_spec ver sha _).2.2
  · rintro ⟨w', r', hw', h⟩
    cases w' with
    | nil =>
      have h' : "{% set name = \"".toList ++ n = "{% set version =".toList ++ r' := by simpa using h
      have := congrArg (fun l => l[7]?) h'
      simp at this
    | cons c w' =>
      have : '{' = c := by
        have := congrArg List.head? h
        simpa using this
      have hc := hw' c (by simp)
      rw [← this] at hc
      exact absurd hc (by decide +kernel)
  · rintro ⟨w', r', hw', h⟩
    have h' : [] ++ '{' :: ("% set name = \"".toList ++ n) = w' ++ 's' :: ("ha256:".toList ++ r') := by simpa [List.append_assoc] using h
    exact absurd (first_nonws (by intro c hc; simp at hc) hw' (by decide +kernel) (by decide +kernel) h') (by decide)

/-- C247: updating a recipe to another version and hash is the same as writing it anew for them. -/
theorem C247_update (name : Txt) (ver sha : Txt) (ver' sha' : String) (deps : List Txt) (h1 : OneLine name) (h2 : OneLine ver) (h3 : OneLine sha)
    (h4 : ∀ d ∈ deps, OneLine d) : metaYaml ver' sha' (render name ver sha deps) = render name ver'.toList sha'.toList deps := by
  unfold metaYaml
  rw [split_render h1 h2 h3 h4]
  unfold render
  congr 1
  have hdeps : (("python".toList :: deps).map depLine).map (metaLine ver' sha') = ("python".toList :: deps).map depLine := by
    rw [List.map_map]
    apply List.map_congr_left
    intro d _
    exact depLine_keep ver' sha' d
  have hv : metaLine ver' sha' ("{% set version = \"".toList ++ ver ++ "\" %}".toList) = "{% set version = \"".toList ++ ver'.toList ++ "\" %}".toList := by
    rw [(metaLine_spec ver' sha' _).1 ⟨[], " \"".toList ++ ver ++ "\" %}".toList, by intro c hc; simp at hc, by simp⟩]
    simp [String.toList_append]
  have hs : metaLine ver' sha' ("  sha256: ".toList ++ sha) = "  sha256: ".toList ++ sha'.toList := by
    rw [(metaLine_spec ver' sha' _).2.1 ⟨[' ', ' '], ' ' :: sha, by
      intro c hc
      have : c = ' ' := by simpa using hc
      subst this; decide +kernel, by simp⟩]
    simp [String.toList_append]
  have hn : metaLine ver' sha' ("{% set name = \"".toList ++ name ++ "\" %}".toList) = "{% set name = \"".toList ++ name ++ "\" %}".toList := by
    rw [List.append_assoc]; exact nameLine_keep ver' sha' _
  have hi : metaLine ver' sha' ("    - ".toList ++ name) = "    - ".toList ++ name := depLine_keep ver' sha' name
  have lit : ∀ l : Txt, ("{% set version =".toList.isPrefixOf (stripWs l) = false ∧ "sha256:".toList.isPrefixOf (stripWs l) = false) →
      metaLine ver' sha' l = l := by
    intro l h
    unfold metaLine
    rw [if_neg (by simp only [h.1]; simp), if_neg (by simp only [h.2]; simp)]
  unfold recipeLines
  rw [List.map_append, List.map_append, hdeps]
  simp only [List.map_cons, List.map_nil, hv, hs, hn, hi]
  rw [lit "".toList (by decide +kernel), lit "package:".toList (by decide +kernel), lit "  name: {{ name|lower }}".toList (by decide +kernel),
    lit "  version: {{ version }}".toList (by decide +kernel), lit "source:".toList (by decide +kernel),
    lit "  url: https://pypi.io/packages/source/{{ name[0] }}/{{ name }}/{{ name }}-{{ version }}.tar.gz".toList (by decide +kernel),
    lit "build:".toList (by decide +kernel), lit "  noarch: python".toList (by decide +kernel), lit "  number: 0".toList (by decide +kernel),
    lit "  script: \"{{ PYTHON }} -m pip install . -vv\"".toList (by decide +kernel), lit "requirements:".toList (by decide +kernel),
    lit "  host:".toList (by decide +kernel), lit "    - python".toList (by decide +kernel), lit "    - pip".toList (by decide +kernel),
    lit "  run:".toList (by decide +kernel), lit "test:".toList (by decide +kernel), lit "  imports:".toList (by decide +kernel),
    lit "about:".toList (by decide +kernel), lit "  home: https://github.com/blalterman/SolarWindPy".toList (by decide +kernel),
    lit "  license: BSD-3-Clause".toList (by decide +kernel), lit "  license_file: LICENSE.rst".toList (by decide +kernel),
    lit "  summary: \"Python package for solar wind data analysis.\"".toList (by decide +kernel), lit "extra:".toList (by decide +kernel),
    lit "  recipe-maintainers:".toList (by decide +kernel), lit "    - blalterman".toList (by decide +kernel)]

/-! ### reading the recipe -/

theorem takeWhile_nonl (q r : Txt) (hq : '\n' ∉ q) (hne : ∃ c ∈ q, isWs c = false) : '\n' ∉ (q ++ r).takeWhile isWs := by
  induction q with
  | nil => obtain ⟨c, hc, _⟩ := hne; simp at hc
  | cons a q ih =>
    rw [List.cons_append]
    by_cases ha : isWs a = true
    · rw [List.takeWhile_cons_of_pos ha]
      obtain ⟨c, hc, hw⟩ := hne
      intro hh
      rcases List.mem_cons.mp hh with h0 | h0
      · exact hq (h0 ▸ List.mem_cons_self)
      · refine ih (fun h1 => hq (List.mem_cons_of_mem _ h1)) ⟨c, ?_, hw⟩ h0
        rcases List.mem_cons.mp hc with rfl | hc
        · rw [ha] at hw; exact absurd hw (by simp)
        · exact hc
    · rw [List.takeWhile_cons_of_neg ha]; simp

theorem takeWhile_stop (a b : Txt) : (a ++ '\n' :: b).takeWhile (· ≠ '\n') = a.takeWhile (· ≠ '\n') := by
  induction a with
  | nil => simp
  | cons c a ih =>
    rw [List.cons_append, List.takeWhile_cons, List.takeWhile_cons, ih]

theorem runItems_pad (q r : Txt) (hq : AllWs q) : runItems (q ++ '\n' :: r) = runItems ('\n' :: r) := by
  have hnl : isWs '\n' = true := by decide +kernel
  have h1 : (q ++ '\n' :: r).takeWhile isWs = q ++ '\n' :: r.takeWhile isWs := by
    rw [List.takeWhile_append_of_pos (fun c hc => hq c hc), List.takeWhile_cons_of_pos hnl]
  have h2 : ('\n' :: r).takeWhile isWs = '\n' :: r.takeWhile isWs := List.takeWhile_cons_of_pos hnl
  have h3 : (q ++ '\n' :: r).dropWhile isWs = r.dropWhile isWs := by
    rw [dropWhile_ws _ _ hq, List.dropWhile_cons_of_pos hnl]
  have h4 : ('\n' :: r).dropWhile isWs = r.dropWhile isWs := List.dropWhile_cons_of_pos hnl
  have h5 : (q ++ '\n' :: r.takeWhile isWs).reverse.takeWhile (· ≠ '\n') = ('\n' :: r.takeWhile isWs).reverse.takeWhile (· ≠ '\n') := by
    rw [List.reverse_append, List.reverse_cons, List.append_assoc, List.singleton_append, takeWhile_stop, takeWhile_stop]
  unfold runItems
  simp only [h1, h2, h3, h4, h5]
  rw [if_pos (by simp), if_pos (by simp)]

theorem runItems_none (q r : Txt) (hq : '\n' ∉ q) (hne : ∃ c ∈ q, isWs c = false) : runItems (q ++ r) = none := by
  unfold runItems
  rw [if_neg (takeWhile_nonl q r hq hne)]

/-- a text without newline at the beginning of a line and more is at the beginning of the line -/
theorem prefix_line (p l r : Txt) (hp : '\n' ∉ p) (h : p <+: l ++ '\n' :: r) : p <+: l := by
  by_cases hlen : p.length ≤ l.length
  · exact List.prefix_of_prefix_length_le h (List.prefix_append _ _) hlen
  · push Not at hlen
    exfalso
    apply hp
    obtain ⟨t, ht⟩ := h
    have h1 : (p ++ t)[l.length]? = some '\n' := by rw [ht]; simp
    rw [List.getElem?_append_left hlen] at h1
    exact List.mem_of_getElem? h1

/-- nothing is found in a line that has no `run:`, or after which no list follows -/
theorem searchRun_line (l r : Txt) (hl : '\n' ∉ l) (h : ¬ "run:".toList <:+: l ∨ runItems ('\n' :: r) = none) :
    searchRun (l ++ '\n' :: r) = searchRun r := by
  induction l with
  | nil =>
    rw [List.nil_append, searchRun, if_neg]
    simp
  | cons c l ih =>
    have hl' : '\n' ∉ l := fun hh => hl (List.mem_cons_of_mem _ hh)
    have h' : ¬ "run:".toList <:+: l ∨ runItems ('\n' :: r) = none := by
      rcases h with h | h
      · exact Or.inl fun hh => h (hh.trans (List.suffix_cons _ _).isInfix)
      · exact Or.inr h
    rw [List.cons_append, searchRun]
    by_cases hp : "run:".toList.isPrefixOf (c :: (l ++ '\n' :: r)) = true
    · rw [if_pos hp]
      rw [List.isPrefixOf_iff_prefix, ← List.cons_append] at hp
      have hp' : "run:".toList <+: c :: l := prefix_line _ _ _ (by decide +kernel) hp
      have hr : runItems ('\n' :: r) = none := h.resolve_left (fun hh => hh hp'.isInfix)
      have : runItems ((c :: (l ++ '\n' :: r)).drop 4) = none := by
        obtain ⟨t, ht⟩ := hp'
        have h4 : (c :: (l ++ '\n' :: r)).drop 4 = t ++ '\n' :: r := by
          rw [← List.cons_append, ← ht, List.append_assoc]; rfl
        rw [h4]
        have htn : '\n' ∉ t := fun hh => hl (by rw [← ht]; exact List.mem_append_right _ hh)
        by_cases hw : AllWs t
        · rw [runItems_pad _ _ hw, hr]
        · unfold AllWs at hw
          push Not at hw
          obtain ⟨d, hd, hdw⟩ := hw
          exact runItems_none _ _ htn ⟨d, hd, by simpa using hdw⟩
      rw [this]
      exact ih hl' h'
    · rw [if_neg hp, ih hl' h']

/-- what follows a newline is no list if its first line that is not blank is none -/
theorem runItems_not (w l r : Txt) (a : Char) (hw : AllWs w) (ha : isWs a = false) (h : ¬ "    - ".toList <+: a :: l) (hlast : w.getLast? = some '\n' ∨ w = []) :
    runItems ('\n' :: (w ++ a :: l ++ '\n' :: r)) = none := by
  have hnl : isWs '\n' = true := by decide +kernel
  have h1 : ('\n' :: (w ++ a :: l ++ '\n' :: r)).takeWhile isWs = '\n' :: w := by
    rw [List.takeWhile_cons_of_pos hnl, List.append_assoc, List.takeWhile_append_of_pos (fun c hc => hw c hc), List.cons_append,
      List.takeWhile_cons_of_neg (by simp [ha])]
    simp
  have h2 : ('\n' :: (w ++ a :: l ++ '\n' :: r)).dropWhile isWs = a :: l ++ '\n' :: r := by
    rw [List.dropWhile_cons_of_pos hnl, List.append_assoc, dropWhile_ws _ _ hw, List.cons_append, List.dropWhile_cons_of_neg (by simp [ha])]
  have h3 : (('\n' :: w).reverse.takeWhile (· ≠ '\n')).reverse = [] := by
    rcases hlast with hl | rfl
    · rw [List.reverse_cons]
      have : ∃ u, w.reverse = '\n' :: u := by
        rw [← List.head?_reverse] at hl
        cases hw' : w.reverse with
        | nil => rw [hw'] at hl; simp at hl
        | cons x u => rw [hw'] at hl; simp at hl; exact ⟨u, by rw [hl]⟩
      obtain ⟨u, hu⟩ := this
      rw [hu]; simp
    · simp
  unfold runItems
  simp only [h1, h2, h3]
  rw [if_pos (by simp), List.nil_append]
  have h4 : ∀ (x : Txt), ¬ "    - ".toList <+: x → ((Chars.split '\n' x).dropLast).takeWhile itemLine = [] := by
    intro x hx
    cases hs : Chars.split '\n' x with
    | nil => rfl
    | cons y ys =>
      cases ys with
      | nil => rfl
      | cons z zs =>
        rw [List.dropLast_cons_cons, List.takeWhile_cons_of_neg]
        unfold itemLine
        rw [Bool.and_eq_true, List.isPrefixOf_iff_prefix]
        rintro ⟨hy, _⟩
        apply hx
        have := Chars.join_split '\n' x
        rw [hs] at this
        rw [← this]
        exact hy.trans (by rw [Chars.join]; exact List.prefix_append _ _)
  rw [h4 _ (fun hh => h (prefix_line _ _ _ (by decide +kernel) hh))]

theorem searchRun_step (l m : Txt) (L : List Txt) (hl : '\n' ∉ l)
    (h : ¬ "run:".toList <:+: l ∨ runItems ('\n' :: Chars.join '\n' (m :: L)) = none) :
    searchRun (Chars.join '\n' (l :: m :: L)) = searchRun (Chars.join '\n' (m :: L)) := by
  rw [Chars.join]; exact searchRun_line l _ hl h

theorem itemLine_dep (d : Txt) (hd : d ≠ []) : itemLine (depLine d) = true := by
  unfold itemLine depLine
  rw [Bool.and_eq_true, List.isPrefixOf_iff_prefix, decide_eq_true_eq, List.length_append]
  refine ⟨List.prefix_append _ _, ?_⟩
  have h1 := List.length_pos_of_ne_nil hd
  have h2 : "    - ".toList.length = 6 := by decide +kernel
  omega

/-- the list after the `run:` line -/
theorem runItems_deps (ds : List Txt) (L : List Txt) (d0 : Txt) (hd0 : d0 ≠ []) (hds : ∀ d ∈ ds, d ≠ []) (hone : ∀ d ∈ d0 :: ds, OneLine d)
    (hL : ∀ l ∈ L, '\n' ∉ l) (hne : L ≠ []) :
    runItems ('\n' :: Chars.join '\n' ((d0 :: ds).map depLine ++ [] :: L)) = some ((d0 :: ds).map depLine) := by
  have hnl : isWs '\n' = true := by decide +kernel
  obtain ⟨J, hJ⟩ : ∃ J, J = Chars.join '\n' ((d0 :: ds).map depLine ++ [] :: L) := ⟨_, rfl⟩
  have hsplit : Chars.split '\n' J = (d0 :: ds).map depLine ++ [] :: L := by
    rw [hJ]
    apply Chars.split_join
    · simp
    · intro p hp
      rcases List.mem_append.mp hp with hp | hp
      · obtain ⟨d, hd, rfl⟩ := List.mem_map.mp hp
        unfold depLine
        rw [List.mem_append, not_or]
        exact ⟨by decide +kernel, hone d hd⟩
      · rcases List.mem_cons.mp hp with rfl | hp
        · simp
        · exact hL p hp
  have hpre : ∃ t, J = [' ', ' ', ' ', ' '] ++ '-' :: t := by
    rw [hJ]
    cases ds with
    | nil => exact ⟨_, by simp [depLine, Chars.join]; rfl⟩
    | cons d ds => exact ⟨_, by simp [depLine, Chars.join]; rfl⟩
  obtain ⟨t, ht⟩ := hpre
  have h1 : ('\n' :: J).takeWhile isWs = '\n' :: [' ', ' ', ' ', ' '] := by
    rw [List.takeWhile_cons_of_pos hnl, ht, List.takeWhile_append_of_pos (fun c hc => four_ws c hc), List.takeWhile_cons_of_neg (by decide +kernel)]
    simp
  have h2 : ('\n' :: J).dropWhile isWs = '-' :: t := by
    rw [List.dropWhile_cons_of_pos hnl, ht, dropWhile_ws _ _ four_ws, List.dropWhile_cons_of_neg (by decide +kernel)]
  have h3 : (('\n' :: [' ', ' ', ' ', ' ']).reverse.takeWhile (· ≠ '\n')).reverse = [' ', ' ', ' ', ' '] := by decide +kernel
  rw [← hJ]
  unfold runItems
  simp only [h1, h2, h3]
  rw [if_pos (by simp), ← ht, hsplit, List.dropLast_append_of_ne_nil (by simp)]
  have hdl : ([] :: L).dropLast = [] :: L.dropLast := by
    cases L with
    | nil => exact absurd rfl hne
    | cons x xs => rfl
  rw [hdl, List.takeWhile_append_of_pos, List.takeWhile_cons_of_neg (by decide +kernel), List.append_nil]
  · rfl
  · intro l hl
    obtain ⟨d, hd, rfl⟩ := List.mem_map.mp hl
    apply itemLine_dep
    rcases List.mem_cons.mp hd with rfl | hd
    · exact hd0
    · exact hds d hd

theorem search_render (name ver sha : Txt) (deps : List Txt) (h1 : OneLine name) (h2 : OneLine ver) (h3 : OneLine sha)
    (h4 : ∀ d ∈ deps, OneLine d ∧ d ≠ []) :
    searchRun (render name ver sha deps) = some (("python".toList :: deps).map depLine) := by
  unfold OneLine at h1 h2 h3
  obtain ⟨T, hT⟩ : ∃ T, T = (["test:".toList,
   "  imports:".toList,
   "    - ".toList ++ name,
   "".toList,
   "about:".toList,
   "  home: https://github.com/blalterman/SolarWindPy".toList,
   "  license: BSD-3-Clause".toList,
   "  license_file: LICENSE.rst".toList,
   "  summary: \"Python package for solar wind data analysis.\"".toList,
   "".toList,
   "extra:".toList,
   "  recipe-maintainers:".toList,
   "    - blalterman".toList,
   "".toList] : List Txt) := ⟨_, rfl⟩
  have hTl : ∀ l ∈ T, '\n' ∉ l := by
    intro l hl
    refine lines_oneLine (ver := ver) (sha := sha) (deps := deps) h1 h2 h3 (fun d hd => (h4 d hd).1) l ?_
    unfold recipeLines
    refine List.mem_append_right _ ?_
    rw [hT] at hl
    exact List.mem_cons_of_mem _ hl
  have hTne : T ≠ [] := by rw [hT]; simp
  obtain ⟨D, hD⟩ : ∃ D, D = ("python".toList :: deps).map depLine ++ [] :: T := ⟨_, rfl⟩
  have hDitems : runItems ('\n' :: Chars.join '\n' D) = some (("python".toList :: deps).map depLine) := by
    rw [hD]
    refine runItems_deps deps T "python".toList (by decide) (fun d hd => (h4 d hd).2) ?_ hTl hTne
    intro d hd
    rcases List.mem_cons.mp hd with rfl | hd
    · unfold OneLine; decide +kernel
    · exact (h4 d hd).1
  have hlines : recipeLines name ver sha deps =
      ("{% set name = \"".toList ++ name ++ "\" %}".toList) :: ("{% set version = \"".toList ++ ver ++ "\" %}".toList) ::
      "".toList :: "package:".toList :: "  name: {{ name|lower }}".toList :: "  version: {{ version }}".toList :: "".toList :: "source:".toList ::
      "  url: https://pypi.io/packages/source/{{ name[0] }}/{{ name }}/{{ name }}-{{ version }}.tar.gz".toList :: ("  sha256: ".toList ++ sha) ::
      "".toList :: "build:".toList :: "  noarch: python".toList :: "  number: 0".toList :: "  script: \"{{ PYTHON }} -m pip install . -vv\"".toList ::
      "".toList :: "requirements:".toList :: "  host:".toList :: "    - python".toList :: "    - pip".toList :: "  run:".toList :: D := by
    rw [hD, hT]
    unfold recipeLines
    rw [List.append_assoc]
    rfl
  unfold render
  rw [hlines]
  rw [searchRun_step _ _ _ (by simp only [List.mem_append, not_or]; exact ⟨⟨by decide +kernel, h1⟩, by decide +kernel⟩)
    (Or.inr (by
      rw [Chars.join]
      exact runItems_not [] ("% set version = \"".toList ++ ver ++ "\" %}".toList) _ '{' (by intro c hc; simp at hc) (by decide +kernel)
        (by simp) (Or.inr rfl)))]
  rw [searchRun_step _ _ _ (by simp only [List.mem_append, not_or]; exact ⟨⟨by decide +kernel, h2⟩, by decide +kernel⟩)
    (Or.inr (by
      rw [Chars.join, Chars.join]
      exact runItems_not ['\n'] "ackage:".toList _ 'p' nl_ws (by decide +kernel)
        (by simp) (Or.inl rfl)))]
  rw [searchRun_step _ _ _ (by decide +kernel) (Or.inl (by decide +kernel)), searchRun_step _ _ _ (by decide +kernel) (Or.inl (by decide +kernel)),
    searchRun_step _ _ _ (by decide +kernel) (Or.inl (by decide +kernel)), searchRun_step _ _ _ (by decide +kernel) (Or.inl (by decide +kernel)),
    searchRun_step _ _ _ (by decide +kernel) (Or.inl (by decide +kernel)), searchRun_step _ _ _ (by decide +kernel) (Or.inl (by decide +kernel)),
    searchRun_step _ _ _ (by decide +kernel) (Or.inl (by decide +kernel))]
  rw [searchRun_step _ _ _ (by simp only [List.mem_append, not_or]; exact ⟨by decide +kernel, h3⟩)
    (Or.inr (by
      rw [Chars.join, Chars.join]
      exact runItems_not ['\n'] "uild:".toList _ 'b' nl_ws (by decide +kernel)
        (by simp) (Or.inl rfl)))]
  rw [searchRun_step _ _ _ (by decide +kernel) (Or.inl (by decide +kernel)), searchRun_step _ _ _ (by decide +kernel) (Or.inl (by decide +kernel)),
    searchRun_step _ _ _ (by decide +kernel) (Or.inl (by decide +kernel)), searchRun_step _ _ _ (by decide +kernel) (Or.inl (by decide +kernel)),
    searchRun_step _ _ _ (by decide +kernel) (Or.inl (by decide +kernel)), searchRun_step _ _ _ (by decide +kernel) (Or.inl (by decide +kernel)),
    searchRun_step _ _ _ (by decide +kernel) (Or.inl (by decide +kernel)), searchRun_step _ _ _ (by decide +kernel) (Or.inl (by decide +kernel)),
    searchRun_step _ _ _ (by decide +kernel) (Or.inl (by decide +kernel)), searchRun_step _ _ _ (by decide +kernel) (Or.inl (by decide +kernel))]
  have hjoin : Chars.join '\n' ("  run:".toList :: D) = ' ' :: ' ' :: ("run:".toList ++ '\n' :: Chars.join '\n' D) := by
    rw [hD, List.map_cons, List.cons_append]; rfl
  rw [hjoin, searchRun, if_neg (by simp), searchRun, if_neg (by simp)]
  show searchRun ('r' :: 'u' :: 'n' :: ':' :: '\n' :: Chars.join '\n' D) = _
  rw [searchRun, if_pos (by simp)]
  show (match runItems ('\n' :: Chars.join '\n' D) with | some l => some l | none => _) = _
  rw [hDitems]

/-- C247: the recipe gives back `python` and the dependencies it was written for, in order. -/
theorem C247_read (name ver sha : Txt) (deps : List Txt) (h1 : OneLine name) (h2 : OneLine ver) (h3 : OneLine sha) (h4 : ∀ d ∈ deps, CleanDep d) :
    feedstockDeps (render name ver sha deps) = "python".toList :: deps := by
  unfold feedstockDeps
  rw [search_render name ver sha deps h1 h2 h3 (fun d hd => ⟨(h4 d hd).2.1, (h4 d hd).1⟩)]
  simp only []
  have hm : (("python".toList :: deps).map depLine).map (fun l => stripWs (l.drop 6)) = "python".toList :: deps := by
    rw [List.map_map]
    conv_rhs => rw [← List.map_id ("python".toList :: deps)]
    apply List.map_congr_left
    intro d hd
    have h6 : (depLine d).drop 6 = d := rfl
    simp only [Function.comp, id, h6]
    apply strip_trimmed
    rcases List.mem_cons.mp hd with rfl | hd
    · unfold Trimmed; decide +kernel
    · exact (h4 d hd).2.2.1
  rw [hm, List.filter_eq_self]
  intro d hd
  rcases List.mem_cons.mp hd with rfl | hd
  · decide +kernel
  · obtain ⟨a, _, _, b⟩ := h4 d hd
    simp only [Bool.and_eq_true, Bool.not_eq_true', List.isEmpty_eq_false_iff]
    refine ⟨?_, a⟩
    rw [← Bool.not_eq_true, List.isPrefixOf_iff_prefix]
    exact b

theorem sdist_name (base name ver : Txt) (hb : base.length = name.length) : sdistVersion name (base ++ '-' :: ver ++ ".tar.gz".toList) = ver := by
  unfold sdistVersion
  have h : ∀ x : Txt, (x ++ ".tar.gz".toList).dropLast.dropLast.dropLast.dropLast.dropLast.dropLast.dropLast = x := by
    intro x
    have e : x ++ ".tar.gz".toList = x ++ ['.'] ++ ['t'] ++ ['a'] ++ ['r'] ++ ['.'] ++ ['g'] ++ ['z'] := by simp
    rw [e]
    simp only [List.dropLast_concat]
  rw [h, ← hb]
  have e : base ++ '-' :: ver = (base ++ ['-']) ++ ver := by simp
  rw [e]
  exact List.drop_left' (by simp)

/-- C247: the recipe written for an archive named `name-version.tar.gz` (the build may spell the name in another way of the same length) and
the dependencies of the project: it is the recipe of that version and hash, and gives back the dependencies, trimmed, behind `python`, also after an update. -/
theorem C247_main (base name ver sha : Txt) (deps : List Txt) (hb : base.length = name.length) (h1 : OneLine name) (h2 : OneLine ver) (h3 : OneLine sha)
    (h4 : ∀ d ∈ deps, CleanDep (stripWs d)) (ver' sha' : String) (h5 : OneLine ver'.toList) (h6 : OneLine sha'.toList) :
    let file := base ++ '-' :: ver ++ ".tar.gz".toList
    recipeMain name file sha deps = render name ver sha (deps.map stripWs) ∧
    feedstockDeps (recipeMain name file sha deps) = "python".toList :: deps.map stripWs ∧
    feedstockDeps (metaYaml ver' sha' (recipeMain name file sha deps)) = "python".toList :: deps.map stripWs := by
  have e : recipeMain name (base ++ '-' :: ver ++ ".tar.gz".toList) sha deps = render name ver sha (deps.map stripWs) := by
    unfold recipeMain; rw [sdist_name base name ver hb]
  simp only []
  rw [e]
  have h4' : ∀ d ∈ deps.map stripWs, CleanDep d := by
    intro d hd
    obtain ⟨d', hd', rfl⟩ := List.mem_map.mp hd
    exact h4 d' hd'
  refine ⟨rfl, C247_read _ _ _ _ h1 h2 h3 h4', ?_⟩
  rw [C247_update _ _ _ _ _ _ h1 h2 h3 (fun d hd => (h4' d hd).2.1)]
  exact C247_read _ _ _ _ h1 h5 h6 h4'

/-- C247: comparing a project with its own recipe: every dependency is found unchanged - provided none is named twice and none `python` - and,
violated, `python` is always shown as a dependency of the recipe only. -/
theorem C247_compare (name ver sha : Txt) (deps : List Txt) (h1 : OneLine name) (h2 : OneLine ver) (h3 : OneLine sha) (h4 : ∀ d ∈ deps, CleanDep d)
    (hn : (deps.map pkgName).Nodup) (hp : ∀ d ∈ deps, pkgName d ≠ "python".toList) :
    ∀ n m l r, (n, m, l, r) ∈ rows deps (feedstockDeps (render name ver sha deps)) →
      (n = "python".toList ∧ m = .onlyFeedstock) ∨ (n ≠ "python".toList ∧ m = .same ∧ ∃ d ∈ deps, pkgName d = n ∧ l = d ∧ r = d) := by
  rw [C247_read name ver sha deps h1 h2 h3 h4]
  have hpy : pkgName "python".toList = "python".toList := by decide +kernel
  have hf : (("python".toList :: deps).map pkgName).Nodup := by
    rw [List.map_cons, hpy, List.nodup_cons]
    refine ⟨?_, hn⟩
    intro h
    obtain ⟨d, hd, e⟩ := List.mem_map.mp h
    exact hp d hd e
  intro n m l r hmem
  unfold rows at hmem
  obtain ⟨k, hk, e⟩ := List.mem_map.mp hmem
  rw [List.mem_dedup] at hk
  simp only [Prod.mk.injEq] at e
  obtain ⟨rfl, rfl, rfl, rfl⟩ := e
  have hk' : k = "python".toList ∨ ∃ d ∈ deps, pkgName d = k := by
    rw [List.map_cons, hpy] at hk
    rcases List.mem_append.mp hk with h | h
    · exact Or.inr (List.mem_map.mp h)
    · rcases List.mem_cons.mp h with h | h
      · exact Or.inl h
      · exact Or.inr (List.mem_map.mp h)
  rcases hk' with rfl | ⟨d, hd, rfl⟩
  · refine Or.inl ⟨rfl, ?_⟩
    rw [specOf_none deps _ hp]
    have : specOf ("python".toList :: deps) "python".toList = "python".toList := by
      have := specOf_mem ("python".toList :: deps) hf "python".toList (by simp)
      rwa [hpy] at this
    rw [this]
    decide +kernel
  · refine Or.inr ⟨hp d hd, ?_, d, hd, rfl, specOf_mem deps hn d hd, specOf_mem _ hf d (by simp [hd])⟩
    rw [specOf_mem deps hn d hd, specOf_mem _ hf d (by simp [hd])]
    unfold marker
    rw [if_pos ⟨(h4 d hd).1, (h4 d hd).1⟩, if_neg (by simp)]

/-- Non-trivial: the hypotheses hold of a project like this one. -/
example : (∀ d ∈ ["numpy>=1.26,<3.0".toList, "scipy>=1.13".toList], CleanDep d) ∧
    (["numpy>=1.26,<3.0".toList, "scipy>=1.13".toList].map pkgName).Nodup ∧
    feedstockDeps (render "solarwindpy".toList "0.1.5".toList "ab12".toList ["numpy>=1.26,<3.0".toList, "scipy>=1.13".toList]) =
      ["python".toList, "numpy>=1.26,<3.0".toList, "scipy>=1.13".toList] := by
  refine ⟨?_, by decide +kernel, by decide +kernel⟩
  unfold CleanDep OneLine Trimmed
  decide +kernel

/-! ### C248: the dependency list of the project file -/

theorem quoted_sep (sep r : Txt) (h : '"' ∉ sep) : quoted none (sep ++ r) = quoted none r := by
  induction sep with
  | nil => rfl
  | cons c sep ih =>
    rw [List.cons_append, quoted, if_neg (fun hc => h (by rw [hc]; exact List.mem_cons_self)), ih (fun hh => h (List.mem_cons_of_mem _ hh))]

theorem quoted_item (d r : Txt) (h : '"' ∉ d) : ∀ acc, acc ++ d ≠ [] → quoted (some acc) (d ++ '"' :: r) = (acc ++ d) :: quoted none r := by
  induction d with
  | nil =>
    intro acc hne
    rw [List.nil_append, quoted, if_pos rfl, if_neg (by simpa using hne), List.append_nil]
  | cons c d ih =>
    intro acc hne
    rw [List.cons_append, quoted, if_neg (fun hc => h (by rw [hc]; exact List.mem_cons_self)), ih (fun hh => h (List.mem_cons_of_mem _ hh)) _ (by simp)]
    simp

/-- Specification: a list as written in the file: items in double quotes, each followed by commas, blanks, line ends, comments. -/
def listText (items : List (Txt × Txt)) : Txt := items.flatMap fun p => '"' :: (p.1 ++ '"' :: p.2)

/-- Specification: a text between items or an item that has neither double quote nor closing bracket. -/
def Inner (s : Txt) : Prop := '"' ∉ s ∧ ']' ∉ s

theorem quoted_list (items : List (Txt × Txt)) (h : ∀ p ∈ items, p.1 ≠ [] ∧ '"' ∉ p.1 ∧ '"' ∉ p.2) (r : Txt) :
    quoted none (listText items ++ r) = items.map Prod.fst ++ quoted none r := by
  induction items with
  | nil => rfl
  | cons p items ih =>
    obtain ⟨h1, h2, h3⟩ := h p (by simp)
    have e : listText (p :: items) ++ r = '"' :: (p.1 ++ '"' :: (p.2 ++ (listText items ++ r))) := by simp [listText]
    rw [e, quoted, if_pos rfl, quoted_item _ _ h2 [] (by simpa using h1), quoted_sep _ _ h3, ih (fun q hq => h q (by simp [hq]))]
    simp

theorem searchDeps_skip (x rest : Txt) (hx : ¬ "dependencies".toList <:+: x) :
    searchDeps (x ++ "dependencies".toList ++ rest) = searchDeps ("dependencies".toList ++ rest) := by
  have hb : NoBorder "dependencies".toList := by unfold NoBorder; decide +kernel
  induction x with
  | nil => rfl
  | cons c x ih =>
    have h := no_early _ hb (c :: x) rest hx (by simp)
    rw [List.cons_append, List.cons_append] at h
    rw [List.cons_append, List.cons_append, searchDeps, if_neg (by rw [List.isPrefixOf_iff_prefix]; exact h),
      ih (fun hh => hx (List.infix_cons_iff.mpr (Or.inr hh)))]

theorem searchDeps_here (w1 w2 body post : Txt) (h1 : AllWs w1) (h2 : AllWs w2) (hb : ']' ∉ body) :
    searchDeps ("dependencies".toList ++ (w1 ++ '=' :: (w2 ++ '[' :: (body ++ ']' :: post)))) = some body := by
  have e : "dependencies".toList ++ (w1 ++ '=' :: (w2 ++ '[' :: (body ++ ']' :: post))) =
      'd' :: ("ependencies".toList ++ (w1 ++ '=' :: (w2 ++ '[' :: (body ++ ']' :: post)))) := rfl
  have hp : "dependencies".toList.isPrefixOf ('d' :: ("ependencies".toList ++ (w1 ++ '=' :: (w2 ++ '[' :: (body ++ ']' :: post))))) = true := by
    rw [← e, List.isPrefixOf_iff_prefix]; exact List.prefix_append _ _
  have hbr : bracketed (w1 ++ '=' :: (w2 ++ '[' :: (body ++ ']' :: post))) = some body := by
    unfold bracketed
    rw [dropWhile_ws _ _ h1, List.dropWhile_cons_of_neg (by decide +kernel)]
    rw [show takeLit '=' ('=' :: (w2 ++ '[' :: (body ++ ']' :: post))) = some (w2 ++ '[' :: (body ++ ']' :: post)) from by simp [takeLit]]
    simp only []
    rw [dropWhile_ws _ _ h2, List.dropWhile_cons_of_neg (by decide +kernel), takeLit, if_pos rfl]
    simp only []
    rw [if_pos (by simp)]
    congr 1
    rw [List.takeWhile_append_of_pos (fun c hc => by simp; rintro rfl; exact hb hc), List.takeWhile_cons_of_neg (by simp), List.append_nil]
  rw [e, searchDeps, if_pos hp]
  show (match bracketed (w1 ++ '=' :: (w2 ++ '[' :: (body ++ ']' :: post))) with | some l => some l | none => _) = _
  rw [hbr]

theorem mem_listText {c : Char} {items : List (Txt × Txt)} (h : c ∈ listText items) : c = '"' ∨ ∃ p ∈ items, c ∈ p.1 ∨ c ∈ p.2 := by
  unfold listText at h
  obtain ⟨p, hp, hc⟩ := List.mem_flatMap.mp h
  simp only [List.mem_cons, List.mem_append] at hc
  rcases hc with h | h | h | h
  · exact Or.inl h
  · exact Or.inr ⟨p, hp, Or.inl h⟩
  · exact Or.inl h
  · exact Or.inr ⟨p, hp, Or.inr h⟩

/-- C248: the dependencies listed in the project file are found, in order and trimmed, blank ones dropped: for a first `dependencies = [...]`
with items in double quotes, no double quote or closing bracket in items or between them. -/
theorem C248_read (pre w1 w2 sep post : Txt) (items : List (Txt × Txt)) (hpre : ¬ "dependencies".toList <:+: pre) (h1 : AllWs w1) (h2 : AllWs w2)
    (hsep : Inner sep) (hi : ∀ p ∈ items, p.1 ≠ [] ∧ Inner p.1 ∧ Inner p.2) :
    pyprojectDeps (pre ++ "dependencies".toList ++ (w1 ++ '=' :: (w2 ++ '[' :: ((sep ++ listText items) ++ ']' :: post)))) =
      ((items.map Prod.fst).map stripWs).filter (fun d => d ≠ []) := by
  unfold pyprojectDeps
  have hb : ']' ∉ sep ++ listText items := by
    rw [List.mem_append]
    rintro (h | h)
    · exact hsep.2 h
    · rcases mem_listText h with h | ⟨p, hp, h | h⟩
      · exact absurd h (by decide)
      · exact (hi p hp).2.1.2 h
      · exact (hi p hp).2.2.2 h
  rw [searchDeps_skip _ _ hpre, searchDeps_here w1 w2 _ post h1 h2 hb]
  simp only []
  have := quoted_list items (fun p hp => ⟨(hi p hp).1, (hi p hp).2.1.1, (hi p hp).2.2.1⟩) []
  rw [List.append_nil] at this
  rw [quoted_sep _ _ hsep.1, this, quoted, List.append_nil]
  apply List.filter_congr
  intro d _
  cases d <;> simp

/-- C248, violated: a dependency with extras, `name[extra]`, ends the list: it and everything behind it is not read. -/
theorem C248_extras (pre w1 w2 sep post a b rest : Txt) (items : List (Txt × Txt)) (hpre : ¬ "dependencies".toList <:+: pre) (h1 : AllWs w1) (h2 : AllWs w2)
    (hsep : Inner sep) (hi : ∀ p ∈ items, p.1 ≠ [] ∧ Inner p.1 ∧ Inner p.2) (ha : Inner a) :
    pyprojectDeps (pre ++ "dependencies".toList ++ (w1 ++ '=' :: (w2 ++ '[' :: ((sep ++ listText items ++ '"' :: a) ++ ']' :: (b ++ '"' :: rest ++ ']' :: post))))) =
      ((items.map Prod.fst).map stripWs).filter (fun d => d ≠ []) := by
  unfold pyprojectDeps
  have hb : ']' ∉ sep ++ listText items ++ '"' :: a := by
    rw [List.mem_append, List.mem_append, List.mem_cons]
    rintro ((h | h) | h | h)
    · exact hsep.2 h
    · rcases mem_listText h with h | ⟨p, hp, h | h⟩
      · exact absurd h (by decide)
      · exact (hi p hp).2.1.2 h
      · exact (hi p hp).2.2.2 h
    · exact absurd h (by decide)
    · exact ha.2 h
  have hq : ∀ acc, quoted (some acc) a = [] := by
    have ha1 := ha.1
    clear ha hb
    induction a with
    | nil => intro acc; rfl
    | cons c a ih =>
      intro acc
      rw [quoted, if_neg (fun hc => ha1 (by rw [hc]; exact List.mem_cons_self))]
      exact ih (fun h => ha1 (List.mem_cons_of_mem _ h)) _
  rw [searchDeps_skip _ _ hpre, searchDeps_here w1 w2 _ _ h1 h2 hb]
  simp only []
  rw [List.append_assoc, quoted_sep _ _ hsep.1, quoted_list items (fun p hp => ⟨(hi p hp).1, (hi p hp).2.1.1, (hi p hp).2.2.1⟩), quoted, if_pos rfl, hq,
    List.append_nil]
  apply List.filter_congr
  intro d _
  cases d <;> simp

/-- C248: a file without the word, or without such a list, has no dependencies. -/
theorem C248_none (content : Txt) (h : ¬ "dependencies".toList <:+: content) : pyprojectDeps content = [] := by
  have : searchDeps content = none := by
    induction content with
    | nil => rfl
    | cons c cs ih =>
      rw [searchDeps, if_neg (by rw [List.isPrefixOf_iff_prefix]; exact fun hh => h hh.isInfix),
        ih (fun hh => h (List.infix_cons_iff.mpr (Or.inr hh)))]
  unfold pyprojectDeps; rw [this]

/-- Non-trivial. -/
example : pyprojectDeps "[project]\ndependencies = [\n  \"numpy>=1.26\",  # new\n  \"scipy\",\n]\n".toList = ["numpy>=1.26".toList, "scipy".toList] ∧
    pyprojectDeps "[project]\ndependencies = [\n  \"numpy>=1.26\",\n  \"dask[array]\",\n  \"scipy\"]\n".toList = ["numpy>=1.26".toList] := by
  decide +kernel

end Recipe
end SW
