import Verif.Labels3
import Verif.Props.Labels2

/-!
# Labels of abundances, dates (C200), sunspot numbers, correlations, manual labels (C201)
-/

namespace SW
namespace Labels

/-! ## Titled text -/

theorem toLower_id {c : Char} (h : ¬ (65 ≤ c.toNat ∧ c.toNat ≤ 90)) : c.toLower = c := by
  unfold Char.toLower
  rw [dif_neg]
  intro hh
  apply h
  exact ⟨UInt32.le_iff_toNat_le.mp hh.1, UInt32.le_iff_toNat_le.mp hh.2⟩

theorem toUpper_id {c : Char} (h : ¬ (97 ≤ c.toNat ∧ c.toNat ≤ 122)) : c.toUpper = c := by
  unfold Char.toUpper
  rw [dif_neg]
  intro hh
  apply h
  exact ⟨UInt32.le_iff_toNat_le.mp hh.1, UInt32.le_iff_toNat_le.mp hh.2⟩

theorem isUpper_iff (c : Char) : c.isUpper = true ↔ 65 ≤ c.toNat ∧ c.toNat ≤ 90 := by
  unfold Char.isUpper
  rw [decide_eq_true_eq]
  exact and_congr UInt32.le_iff_toNat_le UInt32.le_iff_toNat_le

theorem isLower_iff (c : Char) : c.isLower = true ↔ 97 ≤ c.toNat ∧ c.toNat ≤ 122 := by
  unfold Char.isLower
  rw [Bool.and_eq_true, decide_eq_true_eq, decide_eq_true_eq]
  exact and_congr UInt32.le_iff_toNat_le UInt32.le_iff_toNat_le

theorem case_facts (c : Char) : c.toLower.isUpper = false ∧ c.toUpper.isLower = false ∧ c.toLower.isAlpha = c.isAlpha ∧
    c.toUpper.isAlpha = c.isAlpha := by
  have hc : c = Char.ofNat c.toNat := (Char.ofNat_toNat c).symm
  by_cases h : 97 ≤ c.toNat ∧ c.toNat ≤ 122
  · have : ∀ k < 26, ((Char.ofNat (97 + k)).toLower.isUpper = false ∧ (Char.ofNat (97 + k)).toUpper.isLower = false ∧
        (Char.ofNat (97 + k)).toLower.isAlpha = (Char.ofNat (97 + k)).isAlpha ∧
        (Char.ofNat (97 + k)).toUpper.isAlpha = (Char.ofNat (97 + k)).isAlpha) := by decide +kernel
    have h2 := this (c.toNat - 97) (by omega)
    rwa [show 97 + (c.toNat - 97) = c.toNat by omega, ← hc] at h2
  by_cases h' : 65 ≤ c.toNat ∧ c.toNat ≤ 90
  · have : ∀ k < 26, ((Char.ofNat (65 + k)).toLower.isUpper = false ∧ (Char.ofNat (65 + k)).toUpper.isLower = false ∧
        (Char.ofNat (65 + k)).toLower.isAlpha = (Char.ofNat (65 + k)).isAlpha ∧
        (Char.ofNat (65 + k)).toUpper.isAlpha = (Char.ofNat (65 + k)).isAlpha) := by decide +kernel
    have h2 := this (c.toNat - 65) (by omega)
    rwa [show 65 + (c.toNat - 65) = c.toNat by omega, ← hc] at h2
  · rw [toLower_id h', toUpper_id h]
    refine ⟨?_, ?_, rfl, rfl⟩
    · rw [Bool.eq_false_iff]; exact fun hh => h' ((isUpper_iff c).mp hh)
    · rw [Bool.eq_false_iff]; exact fun hh => h ((isLower_iff c).mp hh)

/-- in titled text no capital follows a letter and no small letter follows anything else -/
theorem titled_pair {a b : Char} : ∀ (l : List Char) (p : Bool), [a, b] <:+: titleGo p l →
    (a.isAlpha = true → b.isUpper = false) ∧ (a.isAlpha = false → b.isLower = false) := by
  intro l
  induction l with
  | nil => intro p h; simp [titleGo] at h
  | cons c cs ih =>
    intro p h
    rw [titleGo] at h
    rcases List.infix_cons_iff.mp h with hp | hi
    · clear h
      rw [List.cons_prefix_cons] at hp
      obtain ⟨rfl, hp⟩ := hp
      cases cs with
      | nil => simp [titleGo] at hp
      | cons d cs =>
        rw [titleGo, List.cons_prefix_cons] at hp
        obtain ⟨rfl, _⟩ := hp
        have hal : (if p = true then c.toLower else c.toUpper).isAlpha = c.isAlpha := by
          cases p
          · simpa using (case_facts c).2.2.2
          · simpa using (case_facts c).2.2.1
        rw [hal]
        constructor
        · intro hc
          rw [hc]
          simpa using (case_facts d).1
        · intro hc
          rw [hc]
          simpa using (case_facts d).2.1
    · exact ih _ hi

theorem titleGo_append_dash (l : List Char) : ∀ p, titleGo p (l ++ ['-']) = titleGo p l ++ ['-'] := by
  induction l with
  | nil => intro p; cases p <;> decide
  | cons c cs ih => intro p; simp only [List.cons_append, titleGo, ih]

/-- a pair of different characters that does not occur before splits a text -/
theorem split_pair {x y : Char} (hxy : x ≠ y) {A A' R R' : List Char} (hA : ¬ [x, y] <:+: A) (hA' : ¬ [x, y] <:+: A')
    (h : A ++ x :: y :: R = A' ++ x :: y :: R') : A = A' ∧ R = R' := by
  have key : ∀ {A A' R R' : List Char}, ¬ [x, y] <:+: A' → A ++ x :: y :: R = A' ++ x :: y :: R' → A.length ≤ A'.length →
      A = A' ∧ R = R' := by
    intro A A' R R' hA' h hl
    obtain ⟨u, rfl⟩ : A <+: A' := List.prefix_of_prefix_length_le (List.prefix_append A _) (h ▸ List.prefix_append A' _) hl
    rw [List.append_assoc, List.append_cancel_left_eq] at h
    cases u with
    | nil => simpa using h
    | cons a u =>
      simp only [List.cons_append, List.cons.injEq] at h
      obtain ⟨rfl, h⟩ := h
      cases u with
      | nil =>
        simp only [List.nil_append, List.cons.injEq] at h
        exact absurd h.1.symm hxy
      | cons b u =>
        simp only [List.cons_append, List.cons.injEq] at h
        obtain ⟨rfl, _⟩ := h
        exact absurd ⟨A, u, by simp⟩ hA'
  rcases le_total A.length A'.length with hl | hl
  · exact key hA' h hl
  · obtain ⟨h1, h2⟩ := key hA h.symm hl
    exact ⟨h1.symm, h2.symm⟩

theorem title_toList (s : String) : (title s).toList = titleGo false s.toList := by rw [title, String.toList_ofList]

/-! ## C200 -/

/-- **C200** The save path of an abundance label determines the two species (up to capitalisation, which no label shows) and whether the
ratio is photospheric. -/
theorem C200_path (s r s' r' : String) (p p' f f' : Bool) :
    (mkAbundance s r p f).path = (mkAbundance s' r' p' f').path ↔ title s = title s' ∧ title r = title r' ∧ f = f' := by
  constructor
  · intro h
    have form : ∀ (s r : String) (p f : Bool), (mkAbundance s r p f).path.toList =
        (titleGo false (s.toList ++ ['-'])) ++ 'O' :: 'V' :: ('-' :: (titleGo false r.toList ++ (if f then "_photospheric-ratio".toList else []))) := by
      intro s r p f
      rw [titleGo_append_dash, ← title_toList, ← title_toList]
      cases f <;> simp [Abundance.path, mkAbundance, String.toList_append]
    have ht := congrArg String.toList h
    rw [form, form] at ht
    have hno : ∀ l : List Char, ¬ ['O', 'V'] <:+: titleGo false l := by
      intro l hl
      have := (titled_pair l false hl).1 (by decide)
      revert this; decide
    obtain ⟨h1, h2⟩ := split_pair (by decide) (hno _) (hno _) ht
    rw [titleGo_append_dash, titleGo_append_dash] at h1
    have h1 := List.append_cancel_right h1
    simp only [List.cons.injEq, true_and] at h2
    have hlow : ∀ l l' : List Char, titleGo false l ≠ titleGo false l' ++ "_photospheric-ratio".toList := by
      intro l l' he
      have hin : ['_', 'p'] <:+: titleGo false l := ⟨titleGo false l', "hotospheric-ratio".toList, by rw [he]; simp⟩
      have := (titled_pair l false hin).2 (by decide)
      revert this; decide
    refine ⟨String.toList_injective (by rw [title_toList, title_toList, h1]), ?_⟩
    cases f <;> cases f'
    · simp only [Bool.false_eq_true, if_false, List.append_nil] at h2
      exact ⟨String.toList_injective (by rw [title_toList, title_toList, h2]), rfl⟩
    · simp only [Bool.false_eq_true, if_false, if_true, List.append_nil] at h2
      exact absurd h2 (hlow _ _)
    · simp only [Bool.false_eq_true, if_false, if_true, List.append_nil] at h2
      exact absurd h2.symm (hlow _ _)
    · simp only [if_true] at h2
      exact ⟨String.toList_injective (by rw [title_toList, title_toList, List.append_cancel_right h2]), rfl⟩
  · rintro ⟨h1, h2, rfl⟩
    simp only [Abundance.path, mkAbundance, h1, h2]
    cases f <;> rfl

/-- **C200** Capitalisation of the species does not matter. -/
theorem C200_case (s r : String) (p f : Bool) :
    mkAbundance (s.map Char.toUpper) (r.map Char.toUpper) p f = mkAbundance s r p f := by
  have : ∀ s : String, title (s.map Char.toUpper) = title s := by
    intro s
    unfold title
    rw [String.toList_map, titleGo_upper]
  simp only [mkAbundance, this]

/-- **C200, violated** The same abundance in percent and as a number are different labels with the same path. -/
theorem C200_percent (s r : String) (f : Bool) : (mkAbundance s r true f).path = (mkAbundance s r false f).path ∧
    (mkAbundance s r true f).str ≠ (mkAbundance s r false f).str := by
  refine ⟨rfl, ?_⟩
  intro h
  have ht := congrArg String.toList h
  have e : (mkAbundance s r true f).tex = (mkAbundance s r false f).tex := rfl
  simp only [Abundance.str, Abundance.units, e, String.toList_append, List.append_assoc, List.append_cancel_left_eq] at ht
  simp only [mkAbundance, if_true, Bool.false_eq_true, if_false] at ht
  exact absurd ht (by decide +kernel)

/-- **C200** Elements and isotopes are shown upright; violated for the species codes of the other labels: particles (`a`, `p1`, `e`, …) are
capitalised first and then not recognised. -/
theorem C200_species :
    (∀ k ∈ ["H", "He", "C", "N", "O", "Ne", "Mg", "Si", "S", "Fe"], speciesText (title k) = "\\mathrm{" ++ k ++ "}") ∧
    (∀ a ∈ [("4He", "^{4}\\mathrm{He}"), ("40Ca", "^{40}\\mathrm{Ca}"), ("3He", "^{3}\\mathrm{He}"), ("32S", "^{32}\\mathrm{S}"),
      ("28Si", "^{28}\\mathrm{Si}"), ("24Mg", "^{24}\\mathrm{Mg}"), ("20Ne", "^{20}\\mathrm{Ne}"), ("16O", "^{16}\\mathrm{O}"),
      ("14N", "^{14}\\mathrm{N}"), ("12C", "^{12}\\mathrm{C}")], speciesText (title a.1) = a.2) ∧
    (∀ a ∈ [("p", "P"), ("p1", "P1"), ("p2", "P2"), ("a", "A"), ("a1", "A1"), ("a2", "A2"), ("e", "E"), ("dv", "Dv"), ("p_bimax", "P_Bimax")],
      speciesText (title a.1) = a.2 ∧ makeSpecies a.1 ≠ a.2) := by
  refine ⟨?_, ?_, ?_⟩ <;> decide +kernel

/-- **C200** the text of an abundance label -/
theorem C200_text (s r : String) (p : Bool) :
    (mkAbundance s r p false).str = "$\\mathrm{" ++ speciesText (title s) ++ "}/\\mathrm{" ++ speciesText (title r) ++ "} \\; \\left[" ++
      (if p then "\\%" else "\\#") ++ "\\right]$" ∧
    (mkAbundance s r p true).str = "$\\mathrm{" ++ speciesText (title s) ++ "}/\\mathrm{" ++ speciesText (title r) ++ "}:\\mathrm{" ++
      speciesText (title s) ++ "}/\\mathrm{" ++ speciesText (title r) ++ "}_\\mathrm{photo} \\; \\left[" ++
      (if p then "\\%" else "\\#") ++ "\\right]$" := by
  cases p <;> constructor <;> apply String.toList_injective <;>
    simp [Abundance.str, Abundance.tex, Abundance.units, mkAbundance, String.toList_append]

/-- **C200** An epoch label is refused exactly if its space is none of the four known ones; otherwise its path determines both units of
time, up to capitalisation. -/
theorem C200_epoch (k t s k' t' s' : String) :
    ((∃ e, mkEpoch k t s = .ok e) ↔ s ∈ [" ", "\\,", "\\;", "\\:"]) ∧ (s ∉ [" ", "\\,", "\\;", "\\:"] → mkEpoch k t s = .error .valueError) ∧
    (∀ e e', mkEpoch k t s = .ok e → mkEpoch k' t' s' = .ok e' → (e.path = e'.path ↔ title k = title k' ∧ title t = title t')) ∧
    (∀ e, mkEpoch k t s = .ok e → e.str = "$\\mathrm{" ++ title k ++ " " ++ s ++ " of " ++ s ++ " " ++ title t ++ "}$") := by
  have hmem : s ∈ [" ", "\\,", "\\;", "\\:"] ↔ (s = " " ∨ s = "\\," ∨ s = "\\;" ∨ s = "\\:") := by
    simp only [List.mem_cons, List.not_mem_nil, or_false]
  have hok : ∀ k t s e, mkEpoch k t s = .ok e → e = ⟨title k, title t, s⟩ := by
    intro k t s e h
    unfold mkEpoch at h
    by_cases hs : s = " " ∨ s = "\\," ∨ s = "\\;" ∨ s = "\\:"
    · rw [if_pos hs] at h
      exact (Except.ok.inj h).symm
    · rw [if_neg hs] at h; simp at h
  refine ⟨?_, ?_, ?_, ?_⟩
  · rw [hmem]
    unfold mkEpoch
    by_cases hs : s = " " ∨ s = "\\," ∨ s = "\\;" ∨ s = "\\:"
    · rw [if_pos hs]; exact ⟨fun _ => hs, fun _ => ⟨_, rfl⟩⟩
    · rw [if_neg hs]; exact ⟨fun ⟨e, he⟩ => by simp at he, fun h => absurd h hs⟩
  · rw [hmem]
    intro hs
    unfold mkEpoch
    rw [if_neg hs]
  · intro e e' he he'
    rw [hok _ _ _ _ he, hok _ _ _ _ he']
    constructor
    · intro h
      have ht := congrArg String.toList h
      have form : ∀ a b : String, (Epoch.path ⟨title a, title b, s⟩).toList =
          titleGo false a.toList ++ '-' :: 'o' :: ('f' :: '-' :: titleGo false b.toList) := by
        intro a b
        rw [← title_toList, ← title_toList]
        simp [Epoch.path, String.toList_append]
      have hp : (Epoch.path ⟨title k', title t', s'⟩) = (Epoch.path ⟨title k', title t', s⟩) := rfl
      rw [hp, form, form] at ht
      have hno : ∀ l : List Char, ¬ ['-', 'o'] <:+: titleGo false l := by
        intro l hl
        have := (titled_pair l false hl).2 (by decide)
        revert this; decide
      obtain ⟨h1, h2⟩ := split_pair (by decide) (hno _) (hno _) ht
      simp only [List.cons.injEq, true_and] at h2
      exact ⟨String.toList_injective (by rw [title_toList, title_toList, h1]), String.toList_injective (by rw [title_toList, title_toList, h2])⟩
    · rintro ⟨h1, h2⟩
      simp only [Epoch.path, h1, h2]
  · intro e he
    rw [hok _ _ _ _ he]
    rfl

theorem dateTimePath_clash : dateTimePath "Day of Year" = dateTimePath "day-of-year" := by
  apply String.toList_injective
  unfold dateTimePath
  rw [toList_repl, toList_repl, String.toList_map, String.toList_map]
  decide +kernel

/-- **C200, violated** Two date labels that differ only in capitalisation or in blank against dash have the same path, although their
texts differ. -/
theorem C200_date (k k' : String) (h : k.map Char.toLower = k'.map Char.toLower) (hb : ' ' ∉ k.toList) (hb' : ' ' ∉ k'.toList)
    (hne : k ≠ k') : dateTimePath k = dateTimePath k' ∧ dateTimeStr k ≠ dateTimeStr k' ∧
    dateTimePath "Day of Year" = dateTimePath "day-of-year" := by
  refine And.intro ?_ (And.intro ?_ dateTimePath_clash)
  · exact congrArg (repl " " "-") h
  · intro he
    have hsp : (" " : String) = String.ofList [' '] := by decide +kernel
    have e1 : repl " " " \\; " k = k := by rw [hsp]; exact single_id ' ' _ k hb
    have e2 : repl " " " \\; " k' = k' := by rw [hsp]; exact single_id ' ' _ k' hb'
    unfold dateTimeStr at he
    rw [e1, e2] at he
    have ht := congrArg String.toList he
    simp only [String.toList_append, List.append_assoc, List.append_cancel_left_eq] at ht
    exact hne (String.toList_injective (List.append_cancel_right ht))

example : (mkAbundance "fe" "O" false true).path = "Fe-OV-O_photospheric-ratio" ∧
    (mkAbundance "fe" "O" false true).str =
      "$\\mathrm{\\mathrm{Fe}}/\\mathrm{\\mathrm{O}}:\\mathrm{\\mathrm{Fe}}/\\mathrm{\\mathrm{O}}_\\mathrm{photo} \\; \\left[\\#\\right]$" := by
  decide +kernel
example : (mkEpoch "hour" "day" "\\,").toOption.map Epoch.path = some "Hour-of-Day" ∧ dateTimePath "Year" = "year" := by decide +kernel
example : "Year".map Char.toLower = "YEAR".map Char.toLower ∧ ' ' ∉ "Year".toList ∧ ' ' ∉ "YEAR".toList ∧ "Year" ≠ "YEAR" := by decide +kernel

/-! ## C201: sunspot numbers -/

/-- the eight kinds of sunspot number -/
def ssnKinds : List String := ["M", "M13", "D", "Y", "NM", "NM13", "ND", "NY"]

/-- text and path of each kind -/
def ssnTable : List (String × String × String) := [
  ("M", "\\mathrm{Monthly \\; SSN}", "Mssn"), ("M13", "\\mathrm{13 \\; Month \\; Smoothed \\; SSN}", "M13ssn"),
  ("D", "\\mathrm{Daily \\; SSN}", "Dssn"), ("Y", "\\mathrm{Annual \\; SSN}", "Yssn"),
  ("NM", "\\mathrm{Normalized \\; Monthly \\; SSN}", "NMssn"),
  ("NM13", "\\mathrm{Normalized \\; 13 \\; Month \\; Smoothed \\; SSN}", "NM13ssn"),
  ("ND", "\\mathrm{Normalized \\; Daily \\; SSN}", "NDssn"), ("NY", "\\mathrm{Normalized \\; Yearly \\; SSN}", "NYssn")]

theorem ssn_rows : ∀ k ∈ ssnKinds, (match ssnPretty.lookup k with
    | some t => (Except.ok (k, repl " " " \\; " ("\\mathrm{" ++ t ++ " SSN}"), k ++ "ssn") : Except PyErr (String × String × String))
    | none => .error .keyError).toOption.any (· ∈ ssnTable) = true := by
  decide +kernel

theorem ssn_ok (key : String) (v : String × String × String) (h : mkSSN key = .ok v) : v.1 = key.map Char.toUpper ∧ v ∈ ssnTable := by
  unfold mkSSN at h
  by_cases hk : key.map Char.toUpper ∈ ["M", "M13", "D", "Y", "NM", "NM13", "ND", "NY"]
  · simp only [if_pos hk] at h
    have := ssn_rows _ hk
    cases hl : ssnPretty.lookup (key.map Char.toUpper) with
    | none => rw [hl] at h; simp at h
    | some t =>
      rw [hl] at h this
      rw [← Except.ok.inj h]
      exact ⟨rfl, by simpa [Except.toOption] using this⟩
  · simp only [if_neg hk] at h
    simp at h

/-- **C201** A sunspot label exists exactly for the eight kinds, in any capitalisation; anything else is an `AssertionError`, never another
failure.  Its text and path are the table's. -/
theorem C201_ssn (key : String) :
    ((∃ v, mkSSN key = .ok v) ↔ key.map Char.toUpper ∈ ssnKinds) ∧
    (key.map Char.toUpper ∉ ssnKinds → mkSSN key = .error .assertionError) ∧
    (∀ v, mkSSN key = .ok v → v.1 = key.map Char.toUpper ∧ v ∈ ssnTable) := by
  refine ⟨⟨?_, ?_⟩, ?_, ssn_ok key⟩
  · rintro ⟨v, hv⟩
    obtain ⟨h1, h2⟩ := ssn_ok key v hv
    rw [← h1]
    have : ∀ v ∈ ssnTable, v.1 ∈ ssnKinds := by decide +kernel
    exact this v h2
  · intro hk
    unfold mkSSN
    have hk' : key.map Char.toUpper ∈ ["M", "M13", "D", "Y", "NM", "NM13", "ND", "NY"] := hk
    simp only [if_pos hk']
    have := ssn_rows _ hk
    cases hl : ssnPretty.lookup (key.map Char.toUpper) with
    | none => rw [hl] at this; simp [Except.toOption] at this
    | some t => exact ⟨_, rfl⟩
  · intro hk
    unfold mkSSN
    have hk' : key.map Char.toUpper ∉ ["M", "M13", "D", "Y", "NM", "NM13", "ND", "NY"] := hk
    simp only [if_neg hk']

/-- **C201** Sunspot labels have equal texts, or equal paths, exactly if their kinds agree up to capitalisation. -/
theorem C201_ssn_unique (key key' : String) (v v' : String × String × String) (h : mkSSN key = .ok v) (h' : mkSSN key' = .ok v') :
    (v.2.1 = v'.2.1 ↔ key.map Char.toUpper = key'.map Char.toUpper) ∧ (v.2.2 = v'.2.2 ↔ key.map Char.toUpper = key'.map Char.toUpper) := by
  obtain ⟨h1, h2⟩ := ssn_ok _ _ h
  obtain ⟨h1', h2'⟩ := ssn_ok _ _ h'
  rw [← h1, ← h1']
  have : ∀ v ∈ ssnTable, ∀ v' ∈ ssnTable, (v.2.1 = v'.2.1 ↔ v.1 = v'.1) ∧ (v.2.2 = v'.2.2 ↔ v.1 = v'.1) := by decide +kernel
  exact this v h2 v' h2'

/-! ## C201: correlations -/

theorem mem_replGo {old new : List Char} {c : Char} : ∀ (l : List Char) (k : Nat), c ∈ replGo old new k l → c ∈ new ∨ c ∈ l := by
  intro l
  induction l with
  | nil => intro k h; cases k <;> simp [replGo] at h
  | cons a cs ih =>
    intro k h
    cases k with
    | zero =>
      rw [replGo] at h
      split at h
      · rcases List.mem_append.mp h with h | h
        · exact .inl h
        · rcases ih _ h with h | h
          · exact .inl h
          · exact .inr (List.mem_cons_of_mem _ h)
      · rcases List.mem_cons.mp h with h | h
        · exact .inr (h ▸ List.mem_cons_self)
        · rcases ih _ h with h | h
          · exact .inl h
          · exact .inr (List.mem_cons_of_mem _ h)
    | succ k =>
      rw [replGo] at h
      rcases ih _ h with h | h
      · exact .inl h
      · exact .inr (List.mem_cons_of_mem _ h)

theorem squeeze_mem {c : Char} (hc : c ≠ '\\') (hc' : c ≠ ',') : ∀ (n : Nat) (s : String), c ∉ s.toList → c ∉ (squeeze n s).toList := by
  intro n
  induction n with
  | zero => intro s h; exact h
  | succ n ih =>
    intro s h
    unfold squeeze
    split
    · exact h
    · apply ih
      rw [toList_repl]
      intro hm
      rcases mem_replGo _ _ hm with h2 | h2
      · have h2' : c ∈ ['\\', ','] := h2
        simp only [List.mem_cons, List.not_mem_nil, or_false] at h2'
        rcases h2' with h2' | h2'
        · exact hc h2'
        · exact hc' h2'
      · exact h h2

/-- the two replacements of the correlation label: every blank becomes a thin space -/
theorem thin_blanks (t : String) : repl " \\, " "\\," (repl " " " \\, " t) = repl " " "\\," t := by
  apply String.toList_injective
  rw [toList_repl, toList_repl, toList_repl]
  show replGo [' ', '\\', ',', ' '] ['\\', ','] 0 (replGo [' '] [' ', '\\', ',', ' '] 0 t.toList) = replGo [' '] ['\\', ','] 0 t.toList
  rw [replGo_single, replGo_single]
  induction t.toList with
  | nil => rfl
  | cons c cs ih =>
    rw [List.flatMap_cons, List.flatMap_cons]
    by_cases h : c = ' '
    · rw [if_pos h, if_pos h, replGo_match _ _ _ (by decide), ih]
    · rw [if_neg h, if_neg h, List.singleton_append, List.singleton_append, replGo_head_ne _ _ _ _ _ h, ih]

/-- the text of a correlation before blanks are thinned -/
def xcorrText (a b : Part) (method : String) : String := "\\mathrm{{" ++ title method ++ "}}(" ++ a.anyTex ++ "," ++ b.anyTex ++ ")"

/-- **C201** A correlation label is refused with a `TypeError` exactly if a constituent is neither text nor label; the long form never fails
otherwise, the short form fails (`IndexError`) exactly for an empty method. -/
theorem C201_xcorr_errors (a b : Option Part) (method : String) (short : Bool) :
    (xcorr a b method short = .error .typeError ↔ a = none ∨ b = none) ∧
    (∀ x y, a = some x → b = some y → ((∃ v, xcorr a b method short = .ok v) ↔ (short = true → method ≠ "")) ∧
      (short = true → method = "" → xcorr a b method short = .error .indexError)) := by
  have ht : (title method).toList = [] ↔ method = "" := by
    rw [title_toList]
    constructor
    · intro h
      apply String.toList_injective
      cases hm : method.toList with
      | nil => rfl
      | cons c cs => rw [hm] at h; simp [titleGo] at h
    · rintro rfl; rfl
  cases a with
  | none => exact ⟨⟨fun _ => .inl rfl, fun _ => rfl⟩, fun x y h => by simp at h⟩
  | some a =>
    cases b with
    | none => exact ⟨⟨fun _ => .inr rfl, fun _ => rfl⟩, fun x y _ h => by simp at h⟩
    | some b =>
      cases short with
      | false =>
        refine ⟨?_, fun x y _ _ => ⟨⟨fun _ h => by simp at h, fun _ => ⟨_, rfl⟩⟩, fun h => by simp at h⟩⟩
        simp [xcorr]
      | true =>
        cases hm : (title method).toList with
        | nil =>
          have hx : xcorr (some a) (some b) method true = .error .indexError := by simp [xcorr, hm]
          rw [hx]
          refine ⟨by simp, fun x y _ _ => ⟨⟨fun ⟨v, h⟩ => by simp at h, fun h => absurd (ht.mp hm) (h rfl)⟩, fun _ _ => rfl⟩⟩
        | cons c cs =>
          have hne : method ≠ "" := fun h => by rw [ht.mpr h] at hm; simp at hm
          have hx : ∃ v, xcorr (some a) (some b) method true = .ok v := by simp [xcorr, hm]
          obtain ⟨v, hv⟩ := hx
          rw [hv]
          refine ⟨by simp, fun x y _ _ => ⟨⟨fun _ _ => hne, fun _ => ⟨_, rfl⟩⟩, fun _ h => absurd h hne⟩⟩

theorem xcorr_form (a b : Part) (method : String) (short : Bool) (v : String × String) (h : xcorr (some a) (some b) method short = .ok v) :
    ∃ t, v.1 = squeeze (repl " " "\\," t).toList.length (repl " " "\\," t) ∧
      v.2 = "Xcorr" ++ title method ++ "-" ++ repl " " "-" a.anyPath ++ "-" ++ repl " " "-" b.anyPath ∧
      (short = false → t = xcorrText a b method) ∧
      (short = true → ∃ c cs, (title method).toList = c :: cs ∧ t = "\\rho_{" ++ String.ofList [c] ++ "}(" ++ a.anyTex ++ "," ++ b.anyTex ++ ")") := by
  unfold xcorr at h
  simp only [thin_blanks] at h
  cases short with
  | false =>
    simp only [Bool.false_eq_true, if_false] at h
    rw [← Except.ok.inj h]
    unfold xcorrText
    generalize "\\mathrm{{" ++ title method ++ "}}(" ++ a.anyTex ++ "," ++ b.anyTex ++ ")" = t
    exact Exists.intro t (And.intro rfl (And.intro rfl (And.intro (fun _ => rfl) (fun h => Bool.noConfusion h))))
  | true =>
    simp only [if_true] at h
    cases hm : (title method).toList with
    | nil => rw [hm] at h; simp at h
    | cons c cs =>
      rw [hm] at h
      simp only at h
      rw [← Except.ok.inj h]
      refine Exists.intro ("\\rho_{" ++ String.ofList [c] ++ "}(" ++ a.anyTex ++ "," ++ b.anyTex ++ ")") ?_
      have hc : ∃ c' cs', c :: cs = c' :: cs' ∧ "\\rho_{" ++ String.ofList [c] ++ "}(" ++ a.anyTex ++ "," ++ b.anyTex ++ ")" =
        "\\rho_{" ++ String.ofList [c'] ++ "}(" ++ a.anyTex ++ "," ++ b.anyTex ++ ")" := ⟨c, cs, rfl, rfl⟩
      revert hc
      generalize "\\rho_{" ++ String.ofList [c] ++ "}(" ++ a.anyTex ++ "," ++ b.anyTex ++ ")" = t
      intro hc
      exact (And.intro rfl (And.intro rfl (And.intro (fun h => Bool.noConfusion h) (fun _ => hc))))

theorem blank_single : (" " : String) = String.ofList [' '] := by decide +kernel

/-- **C201** The text of a correlation label has no blank and no doubled thin space, whatever the texts of its constituents. -/
theorem C201_xcorr_clean (a b : Part) (method : String) (short : Bool) (v : String × String)
    (h : xcorr (some a) (some b) method short = .ok v) : ' ' ∉ v.1.toList ∧ ¬ "\\,\\,".toList <:+: v.1.toList := by
  obtain ⟨t, h1, -⟩ := xcorr_form a b method short v h
  rw [h1]
  have hg : ' ' ∉ (repl " " "\\," t).toList := by
    rw [blank_single]
    exact single_gone ' ' _ t (by decide)
  generalize repl " " "\\," t = w at hg
  exact And.intro (squeeze_mem (by decide) (by decide) _ w hg) (C141_cleanup w)

theorem squeeze_id (s : String) (h : ¬ "\\,\\,".toList <:+: s.toList) : ∀ n, squeeze n s = s := by
  intro n
  cases n with
  | zero => rfl
  | succ n =>
    have : repl "\\,\\," "\\," s = s := by
      apply String.toList_injective
      rw [toList_repl, replGo_of_not_infix _ _ _ h]
    unfold squeeze
    rw [this, if_pos rfl]

/-- **C201** Constituents without blanks and doubled thin spaces are shown as they are, first then second, behind the method. -/
theorem C201_xcorr_text (a b : Part) (method : String) (hb : ' ' ∉ (xcorrText a b method).toList)
    (hd : ¬ "\\,\\,".toList <:+: (xcorrText a b method).toList) :
    ∃ p, xcorr (some a) (some b) method false = .ok ("\\mathrm{{" ++ title method ++ "}}(" ++ a.anyTex ++ "," ++ b.anyTex ++ ")", p) := by
  obtain ⟨v, hv⟩ := ((C201_xcorr_errors (some a) (some b) method false).2 a b rfl rfl).1.mpr (by simp)
  obtain ⟨t, h1, -, h2, -⟩ := xcorr_form a b method false v hv
  rw [h2 rfl] at h1
  have hsp : (" " : String) = String.ofList [' '] := by decide +kernel
  have e : repl " " "\\," (xcorrText a b method) = xcorrText a b method := by rw [hsp]; exact single_id ' ' _ _ hb
  rw [e, squeeze_id _ hd] at h1
  refine ⟨v.2, ?_⟩
  rw [hv]
  exact congrArg Except.ok (Prod.ext h1 rfl)

/-- **C201, violated** Save paths of correlation and comparison labels do not say where the first constituent ends: `a-b` with `c` and `a`
with `b-c` share it, for all paths and methods. -/
theorem C201_ambiguous (x y z ta tb tc td method name : String) (ua ub uc ud : Option String) (v v' : String × String)
    (h : xcorr (some (.label ta (x ++ "-" ++ y) ua)) (some (.label tb z ub)) method false = .ok v)
    (h' : xcorr (some (.label tc x uc)) (some (.label td (y ++ "-" ++ z) ud)) method false = .ok v') :
    v.2 = v'.2 ∧ comparisonPath (.label ta (x ++ "-" ++ y) ua) (.label tb z ub) name = comparisonPath (.label tc x uc) (.label td (y ++ "-" ++ z) ud) name := by
  have hsp : (" " : String) = String.ofList [' '] := by decide +kernel
  have hd : repl (String.ofList [' ']) "-" "-" = "-" := by decide +kernel
  have e : ∀ p : String, p ++ "-" ++ repl " " "-" (x ++ "-" ++ y) ++ "-" ++ repl " " "-" z = p ++ "-" ++ repl " " "-" x ++ "-" ++ repl " " "-" (y ++ "-" ++ z) := by
    intro p
    rw [hsp]
    simp only [repl_append_single, hd, String.append_assoc]
  obtain ⟨-, -, h2, -⟩ := xcorr_form _ _ _ _ _ h
  obtain ⟨-, -, h2', -⟩ := xcorr_form _ _ _ _ _ h'
  rw [h2, h2']
  exact ⟨e _, e _⟩

/-! ## C201: manual labels and counts of another label -/

theorem dropWhile_replicate (c : Char) (p : Char → Bool) (hp : p c = true) (l : List Char) : ∀ n, (List.replicate n c ++ l).dropWhile p = l.dropWhile p := by
  intro n
  induction n with
  | zero => rfl
  | succ n ih => rw [List.replicate_succ, List.cons_append, List.dropWhile_cons_of_pos hp, ih]

theorem dropWhile_none (p : Char → Bool) (l : List Char) (h : ∀ c ∈ l, p c = false) : l.dropWhile p = l := by
  cases l with
  | nil => rfl
  | cons a l =>
    rw [List.dropWhile_cons_of_neg]
    rw [h a List.mem_cons_self]; simp

/-- `n` dollar signs -/
def dollars (n : Nat) : String := String.ofList (List.replicate n '$')

theorem strip_dollars (core : String) (i j : Nat) (h : '$' ∉ core.toList) : strip ['$'] (dollars i ++ core ++ dollars j) = core := by
  apply String.toList_injective
  unfold strip dollars
  simp only [String.toList_append, String.toList_ofList]
  have hp : (fun c : Char => ['$'].contains c) '$' = true := by decide
  have hn : ∀ c ∈ core.toList, (fun c : Char => ['$'].contains c) c = false := by
    intro c hc
    have : c ≠ '$' := fun e => h (e ▸ hc)
    simpa using this
  rw [List.append_assoc, dropWhile_replicate _ _ hp]
  cases hcore : core.toList with
  | nil =>
    rw [List.nil_append]
    have : (List.replicate j '$').dropWhile (fun c => ['$'].contains c) = [] := by
      have := dropWhile_replicate '$' _ hp [] j
      rwa [List.append_nil] at this
    rw [this]; rfl
  | cons a l =>
    rw [hcore] at hn
    rw [List.cons_append, List.dropWhile_cons_of_neg (by have := hn a List.mem_cons_self; simpa using this), ← List.cons_append, List.reverse_append,
      List.reverse_replicate, dropWhile_replicate _ _ hp, dropWhile_none _ _ (fun c hc => hn c (List.mem_reverse.mp hc)), List.reverse_reverse]

/-- the known units -/
theorem inU_clean : ∀ a ∈ inU, '$' ∉ a.2.toList ∧ '[' ∉ a.2.toList ∧ ']' ∉ a.2.toList ∧ a.2 ≠ "" := by decide +kernel

/-- **C201** A manual label needs a unit (`None` is an `AttributeError`); enclosing dollar signs of text and unit are dropped; known unit
names are spelled out; without an explicit path the text, blanks as dashes, is the path. -/
theorem C201_manual (core u : String) (i j k l : Nat) (path : Option String) (h : '$' ∉ core.toList) (hu : '$' ∉ u.toList) :
    mkManual (dollars i ++ core ++ dollars j) none path = .error .attributeError ∧
    (inU.lookup (dollars k ++ u ++ dollars l) = none →
      mkManual (dollars i ++ core ++ dollars j) (some (dollars k ++ u ++ dollars l)) path = .ok ⟨core, u, path.getD (repl " " "-" core)⟩) ∧
    (∀ n w, inU.lookup n = some w →
      mkManual (dollars i ++ core ++ dollars j) (some n) path = .ok ⟨core, w, path.getD (repl " " "-" core)⟩) := by
  refine ⟨rfl, ?_, ?_⟩
  · intro hl
    unfold mkManual
    simp only [hl, Option.getD_none, strip_dollars _ _ _ h, strip_dollars _ _ _ hu]
  · intro n w hl
    have hw : '$' ∉ w.toList := by
      have : (n, w) ∈ inU := by
        revert hl
        generalize inU = t
        induction t with
        | nil => intro h; simp at h
        | cons a t ih =>
          intro h
          rw [List.lookup_cons] at h
          by_cases e : n == a.1
          · rw [e] at h
            simp only [Option.some.injEq] at h
            rw [beq_iff_eq] at e
            exact List.mem_cons.mpr (.inl (Prod.ext e h.symm))
          · rw [Bool.not_eq_true] at e
            rw [e] at h
            exact List.mem_cons_of_mem _ (ih h)
      exact (inU_clean _ this).1
    have hw2 : strip ['$'] w = w := by
      have := strip_dollars w 0 0 hw
      have e0 : dollars 0 = "" := rfl
      rwa [e0, String.append_empty, String.empty_append] at this
    unfold mkManual
    simp only [hl, Option.getD_some, strip_dollars _ _ _ h, hw2]

/-- **C201** A manual label whose text and unit have no brackets is shown as text, then the unit in brackets, all within one pair of dollar
signs; with an empty unit no brackets appear. -/
theorem C201_manual_text (t u p : String) (ht : '[' ∉ t.toList) (hu : '[' ∉ u.toList) (hu' : ']' ∉ u.toList) :
    (u ≠ "" → (Manual.str ⟨t, u, p⟩) = "$\\mathrm{" ++ repl " " " \\; " t ++ "} \\; [" ++ u ++ "]$") ∧
    (Manual.str ⟨t, "", p⟩) = "$\\mathrm{" ++ repl " " " \\; " t ++ "} $" := by
  have hsp : (" " : String) = String.ofList [' '] := by decide +kernel
  have hT : '[' ∉ (repl " " " \\; " t).toList := by
    rw [hsp]
    exact single_keeps ' ' '[' _ t (by decide) ht
  obtain ⟨T, hTe⟩ : ∃ T, T = repl " " " \\; " t := ⟨_, rfl⟩
  rw [← hTe] at hT
  have hP : '[' ∉ "$\\mathrm{".toList ++ T.toList ++ "} ".toList := by
    intro h
    rcases List.mem_append.mp h with h | h
    · rcases List.mem_append.mp h with h | h
      · revert h; decide
      · exact hT h
    · revert h; decide
  obtain ⟨P, hPe⟩ : ∃ P, P = "$\\mathrm{".toList ++ T.toList ++ "} ".toList := ⟨_, rfl⟩
  rw [← hPe] at hP
  have hstr : ∀ w : String, (Manual.str ⟨t, w, p⟩).toList = replGo ['\\', ';', ' ', '[', ']'] [] 0 (P ++ '\\' :: ';' :: ' ' :: '[' :: (w.toList ++ [']', '$'])) := by
    intro w
    unfold Manual.str
    rw [toList_repl, ← hTe]
    have e1 : ("$\\mathrm{" ++ T ++ "} \\; [" ++ w ++ "]$").toList = P ++ '\\' :: ';' :: ' ' :: '[' :: (w.toList ++ [']', '$']) := by
      rw [hPe]
      simp only [String.toList_append, List.append_assoc]
      rfl
    rw [e1]
    rfl
  constructor
  · intro hne
    apply String.toList_injective
    rw [hstr u]
    have e1 : ("$\\mathrm{" ++ repl " " " \\; " t ++ "} \\; [" ++ u ++ "]$").toList = P ++ '\\' :: ';' :: ' ' :: '[' :: (u.toList ++ [']', '$']) := by
      rw [hPe, ← hTe]
      simp only [String.toList_append, List.append_assoc]
      rfl
    rw [e1]
    apply replGo_of_not_infix
    rintro ⟨A, B, hAB⟩
    -- the opening bracket occurs once
    have h1 : (A ++ ['\\', ';', ' ']) ++ '[' :: (']' :: B) = (P ++ ['\\', ';', ' ']) ++ '[' :: (u.toList ++ [']', '$']) := by
      simpa using hAB
    have hno : '[' ∉ P ++ ['\\', ';', ' '] := by
      intro h
      rcases List.mem_append.mp h with h | h
      · exact hP h
      · revert h; decide
    have hno2 : '[' ∉ u.toList ++ [']', '$'] := by
      intro h
      rcases List.mem_append.mp h with h | h
      · exact hu h
      · revert h; decide
    have hsplit : ']' :: B = u.toList ++ [']', '$'] := by
      rcases List.append_eq_append_iff.mp h1 with ⟨w, hw1, hw2⟩ | ⟨w, hw1, hw2⟩
      · cases w with
        | nil => simpa using hw2
        | cons a w =>
          simp only [List.cons_append, List.cons.injEq] at hw2
          exact absurd (by rw [hw1, ← hw2.1]; simp) hno
      · cases w with
        | nil => simpa using hw2.symm
        | cons a w =>
          simp only [List.cons_append, List.cons.injEq] at hw2
          exact absurd (by rw [hw2.2]; simp) hno2
    cases hul : u.toList with
    | nil => exact hne (String.toList_injective (by rw [hul]; rfl))
    | cons a l =>
      rw [hul] at hsplit hu'
      simp only [List.cons_append, List.cons.injEq] at hsplit
      exact hu' (hsplit.1 ▸ List.mem_cons_self)
  · apply String.toList_injective
    rw [hstr ""]
    have key : ∀ Q : List Char, '[' ∉ Q → replGo ['\\', ';', ' ', '[', ']'] [] 0 (Q ++ '\\' :: ';' :: ' ' :: '[' :: ([] ++ [']', '$'])) = Q ++ ['$'] := by
      intro Q
      induction Q with
      | nil => intro _; decide
      | cons a Q ih =>
        intro hQ
        rw [List.mem_cons, not_or] at hQ
        rw [List.cons_append, replGo_cons, ih hQ.2, List.cons_append]
        rintro ⟨B, hB⟩
        have hB : ['\\', ';', ' ', '[', ']'] ++ B = a :: (Q ++ ['\\', ';', ' ', '[', ']', '$']) := by simpa using hB
        rcases Q with _ | ⟨b, _ | ⟨c, _ | ⟨d, Q⟩⟩⟩
        · simp at hB
        · simp at hB
        · simp at hB
        · simp only [List.cons_append, List.nil_append, List.cons.injEq] at hB
          exact hQ.2 (by rw [← hB.2.2.2.1]; simp)
    have hk := key P hP
    have e0 : ("" : String).toList = [] := rfl
    rw [e0, hk, hPe, ← hTe]
    simp only [String.toList_append, List.append_assoc]
    rfl

/-- **C201** A count of another label wants a label: a text passes the type check and then fails with an `AttributeError`.  Violated: as for
probabilities (C140), `\lt` and `\gt` are saved under the same path. -/
theorem C201_count (s t q r : String) (cmp units : Option String) :
    countOther (.str s) cmp = .error .attributeError ∧
    (∃ v, countOther (.label t q units) cmp = .ok v) ∧
    (∃ t1 t2 path, countOther (.label t q units) (some ("\\lt" ++ r)) = .ok (t1, path) ∧
      countOther (.label t q units) (some ("\\gt" ++ r)) = .ok (t2, path)) := by
  refine ⟨rfl, ⟨_, rfl⟩, ?_⟩
  have := (lt_gt_chain r)
  simp only [countOther, Part.tex, Part.path, bind, Except.bind, Option.getD_some, this]
  exact ⟨_, _, _, rfl, rfl⟩

example : (∃ v, mkSSN "nm13" = .ok v) ∧ mkSSN "W" = .error .assertionError :=
  ⟨(C201_ssn "nm13").1.mpr (by decide +kernel), (C201_ssn "W").2.1 (by decide +kernel)⟩
example : ' ' ∉ (xcorrText (.label "n_{p}" "n_p" none) (.str "SSN") "spearman").toList ∧
    ¬ "\\,\\,".toList <:+: (xcorrText (.label "n_{p}" "n_p" none) (.str "SSN") "spearman").toList ∧
    xcorrText (.label "n_{p}" "n_p" none) (.str "SSN") "spearman" = "\\mathrm{{Spearman}}(n_{p},SSN)" := by decide +kernel
example : ∃ v, xcorr (some (.label "t" "a-b" none)) (some (.str "c d")) "pearson" true = .ok v ∧ v = ("\\rho_{P}(t,c\\,d)", "XcorrPearson-a-b-c-d") :=
  ⟨_, rfl, by decide +kernel⟩
example : mkManual "$v_x$" (some "kms") none = .ok ⟨"v_x", "\\mathrm{km \\; s^{-1}}", "v_x"⟩ := by
  have h := (C201_manual "v_x" "" 1 1 0 0 none (by decide) (by decide)).2.2 "kms" "\\mathrm{km \\; s^{-1}}" (by decide +kernel)
  have e : dollars 1 ++ "v_x" ++ dollars 1 = "$v_x$" := by decide +kernel
  have e2 : repl " " "-" "v_x" = "v_x" := by decide +kernel
  rw [e, Option.getD_none, e2] at h
  exact h

end Labels
end SW
