import Verif.Props.LabelTex2

/-!
# Exactly which text a measurement label shows (C198) and which labels are equal (C199)
-/

namespace SW
namespace Labels

/-! ## Which texts are inert -/

theorem inertGo_sep {sep : Char} (hsep : sep = ',' ∨ sep = '+') {v : List Char} (hv : Inert v) : ∀ w : List Char, inertGo w = true →
    inertGo (w ++ sep :: v) = true := by
  have hsv : inertGo (sep :: v) = true := by
    cases v with
    | nil => exact absurd rfl (inert_ne hv)
    | cons y v =>
      have hy : y ≠ '}' := by
        rintro rfl
        exact hv.1 '}' rfl (by decide)
      simp only [inertGo, Bool.and_eq_true]
      refine ⟨?_, hv.2⟩
      rcases hsep with rfl | rfl <;> simp [opening, hy]
  intro w
  induction w with
  | nil => intro h; simp [inertGo] at h
  | cons a w ih =>
    intro h
    cases w with
    | nil =>
      have ha : a ≠ '{' := by
        rintro rfl
        simp [inertGo, badLast] at h
      simp only [List.cons_append, List.nil_append, inertGo, Bool.and_eq_true]
      refine ⟨?_, hsv⟩
      rcases hsep with rfl | rfl <;> simp [opening, ha]
    | cons b w =>
      simp only [inertGo, Bool.and_eq_true] at h
      have := ih h.2
      simp only [List.cons_append] at this ⊢
      rw [inertGo]
      simp only [Bool.and_eq_true]
      exact ⟨h.1, this⟩

theorem inert_join {sep : Char} (hsep : sep = ',' ∨ sep = '+') : ∀ ws : List (List Char), ws ≠ [] → (∀ w ∈ ws, Inert w) →
    Inert (Chars.join sep ws) := by
  intro ws
  induction ws with
  | nil => intro h; exact absurd rfl h
  | cons w ws ih =>
    intro _ h
    have hw := h w List.mem_cons_self
    cases ws with
    | nil => exact hw
    | cons v ws =>
      have hv := ih (by simp) (fun x hx => h x (List.mem_cons_of_mem _ hx))
      refine ⟨?_, inertGo_sep hsep hv w hw.2⟩
      intro c hc
      refine hw.1 c ?_
      have := inert_ne hw
      cases w with
      | nil => exact absurd rfl this
      | cons y w => exact hc

theorem inert_codes_table : (∀ a ∈ species, inertGo a.2.toList = true ∧ a.2.toList.head?.all (fun c => !badFirst.contains c) = true) ∧
    (∀ a ∈ transComponent, inertGo a.2.toList = true ∧ a.2.toList.head?.all (fun c => !badFirst.contains c) = true) ∧
    (∀ a ∈ transMeasurement, inertGo a.2.toList = true ∧ a.2.toList.head?.all (fun c => !badFirst.contains c) = true) ∧
    (∀ r ∈ shown, inertGo (measText r.1).toList = true ∧ (measText r.1).toList.head?.all (fun c => !badFirst.contains c) = true) := by
  refine ⟨?_, ?_, ?_, ?_⟩ <;> decide +kernel

theorem inert_of {w : List Char} (h : inertGo w = true ∧ w.head?.all (fun c => !badFirst.contains c) = true) : Inert w := by
  refine ⟨?_, h.1⟩
  intro c hc hb
  have := h.2
  rw [hc] at this
  simp [hb] at this

/-- letters and digits are inert -/
theorem inert_word {w : List Char} (hne : w ≠ []) (h : ∀ c ∈ w, c.isAlphanum = true) : Inert w := by
  have hb : ∀ c : Char, c.isAlphanum = true → c ∉ badFirst ∧ c ∉ badLast ∧ c ≠ '}' := by
    intro c hc
    refine ⟨?_, ?_, ?_⟩
    · intro hm
      simp only [badFirst, List.mem_cons, List.not_mem_nil, or_false] at hm
      rcases hm with rfl | rfl | rfl | rfl | rfl | rfl <;> revert hc <;> decide
    · intro hm
      simp only [badLast, List.mem_cons, List.not_mem_nil, or_false] at hm
      rcases hm with rfl | rfl | rfl | rfl | rfl | rfl | rfl <;> revert hc <;> decide
    · rintro rfl
      revert hc; decide
  refine ⟨fun c hc => (hb c (h c (List.mem_of_head? hc))).1, ?_⟩
  induction w with
  | nil => exact absurd rfl hne
  | cons a w ih =>
    cases w with
    | nil => simpa [inertGo] using (hb a (h a List.mem_cons_self)).2.1
    | cons b w =>
      simp only [inertGo, Bool.and_eq_true]
      refine ⟨?_, ih (by simp) (fun c hc => h c (List.mem_cons_of_mem _ hc))⟩
      have ha := hb a (h a List.mem_cons_self)
      simp only [badLast, List.mem_cons, List.not_mem_nil, or_false, not_or] at ha
      simp [opening, ha]

/-- a component the user may give: none, a documented code, or a word -/
def Component (c : String) : Prop := c = "" ∨ (∃ t, (c, t) ∈ transComponent) ∨ ∀ a ∈ c.toList, a.isAlphanum = true

/-- the species the user may give: none, or documented codes joined by `,` or `+` -/
def SpeciesArg (s : String) : Prop := s = "" ∨ ∃ sep parts, (sep = ',' ∨ sep = '+') ∧ parts ≠ [] ∧ (∀ p ∈ parts, p ∈ species) ∧
  s = pyJoin sep (parts.map Prod.fst)

theorem lookup_getD_mem (tab : List (String × String)) (k : String) :
    (∃ v, (k, v) ∈ tab ∧ (tab.lookup k).getD k = v) ∨ ((∀ v, (k, v) ∉ tab) ∧ (tab.lookup k).getD k = k) := by
  induction tab with
  | nil => exact Or.inr ⟨by simp, rfl⟩
  | cons a tab ih =>
    obtain ⟨x, y⟩ := a
    rw [List.lookup_cons]
    by_cases hx : k = x
    · subst hx
      exact Or.inl ⟨y, List.mem_cons_self, by simp⟩
    · rw [show (k == x) = false by simpa using hx]
      rcases ih with ⟨v, hv, he⟩ | ⟨hv, he⟩
      · exact Or.inl ⟨v, List.mem_cons_of_mem _ hv, he⟩
      · refine Or.inr ⟨?_, he⟩
        intro v hm
        rcases List.mem_cons.mp hm with h | h
        · exact hx (by simpa using congrArg Prod.fst h)
        · exact hv v h

theorem component_inert {c : String} (h : Component c) : (compText c).toList = [] ∧ c = "" ∨ Inert (compText c).toList ∧ c ≠ "" := by
  by_cases hc : c = ""
  · subst hc
    left
    decide +kernel
  right
  refine ⟨?_, hc⟩
  unfold compText
  rcases lookup_getD_mem transComponent c with ⟨v, hv, he⟩ | ⟨hv, he⟩
  · rw [he]
    exact inert_of (inert_codes_table.2.1 _ hv)
  · rw [he]
    rcases h with h | ⟨t, ht⟩ | h
    · exact absurd h hc
    · exact absurd ht (hv t)
    · exact inert_word (fun e => hc (String.toList_injective (by simpa using e))) h

theorem species_inert {s : String} (h : SpeciesArg s) : (makeSpecies s).toList = [] ∧ s = "" ∨ Inert (makeSpecies s).toList ∧ s ≠ "" := by
  rcases h with rfl | ⟨sep, parts, hsep, hne, hp, rfl⟩
  · left
    decide +kernel
  · right
    have hs : ¬ CodeChar sep := by
      rcases hsep with rfl | rfl
      · exact sep_plus.2.1
      · exact sep_plus.1
    have hin : Inert (makeSpecies (pyJoin sep (parts.map Prod.fst))).toList := by
      rw [C136_species sep hs parts hp]
      have : (pyJoin sep (parts.map Prod.snd)).toList = Chars.join sep ((parts.map Prod.snd).map String.toList) := by
        unfold pyJoin; simp
      rw [this]
      refine inert_join hsep _ (by simpa using hne) ?_
      intro w hw
      simp only [List.mem_map] at hw
      obtain ⟨t, ⟨p, hpm, rfl⟩, rfl⟩ := hw
      exact inert_of (inert_codes_table.1 p (hp p hpm))
    refine ⟨hin, ?_⟩
    intro he
    rw [he] at hin
    exact inert_ne hin (by decide +kernel)

theorem isEmpty_iff_of {v : List Char} {c : String} (h : v = [] ∧ c = "" ∨ Inert v ∧ c ≠ "") :
    (v = [] ∨ Inert v) ∧ (!v.isEmpty) = decide (c ≠ "") := by
  rcases h with ⟨rfl, rfl⟩ | ⟨h, hc⟩
  · exact ⟨Or.inl rfl, by simp⟩
  · refine ⟨Or.inr h, ?_⟩
    have := inert_ne h
    cases v with
    | nil => exact absurd rfl this
    | cons y v => simp [hc]

/-- **C198** The text of a documented measurement: exactly the one listed in the specification `shown` for this measurement, depending
only on whether a component and a species are given, with the component and the species in LaTeX; for an uncertainty (`…_err`) the same in
`\sigma(…)`, up to the leftovers listed in `leftover`. -/
theorem C198_text (x : MCS) (r : Shown) (hr : (noErr x.m, r) ∈ shown) (hc : Component x.c) (hs : SpeciesArg x.s) :
    let t := r.pick (decide (x.c ≠ "")) (decide (x.s ≠ ""))
    (oneTex x).toList = render (measText (noErr x.m)).toList (compText x.c).toList (makeSpecies x.s).toList
      (if isErr x.m then sigma (leftover (noErr x.m) (decide (x.c ≠ "")) (decide (x.s ≠ ""))) t else t) := by
  obtain ⟨t, ht, h1, h2⟩ := rows_ok _ hr
  obtain ⟨c1, c2⟩ := isEmpty_iff_of (component_inert hc)
  obtain ⟨s1, s2⟩ := isEmpty_iff_of (species_inert hs)
  have := text_of_row h1 h2 (inert_of (inert_codes_table.2.2.2 _ hr)) c1 s1 (isErr x.m)
  simp only [c2, s2] at this
  simp only []
  rw [← this]
  unfold oneTex
  rw [String.toList_ofList]
  simp only [templateOf]
  rw [show templates.lookup (noErr x.m) = some t from ht]
  rfl

theorem lookup_none_of {tab : List (String × String)} {k : String} (h : k ∉ tab.map Prod.fst) : tab.lookup k = none := by
  induction tab with
  | nil => rfl
  | cons a tab ih =>
    obtain ⟨x, y⟩ := a
    simp only [List.map_cons, List.mem_cons, not_or] at h
    rw [List.lookup_cons, show (k == x) = false by simpa using h.1]
    exact ih h.2

theorem shown_keys : templates.map Prod.fst = shown.map Prod.fst := by decide +kernel

/-- a measurement without a text of its own: a documented code or a word -/
def Measurement (m : String) : Prop := (∃ t, (m, t) ∈ transMeasurement) ∨ m ≠ "" ∧ ∀ a ∈ m.toList, a.isAlphanum = true

theorem measurement_inert {m : String} (h : Measurement m) : Inert (measText m).toList := by
  unfold measText
  rcases lookup_getD_mem transMeasurement m with ⟨v, hv, he⟩ | ⟨hv, he⟩
  · rw [he]
    exact inert_of (inert_codes_table.2.2.1 _ hv)
  · rw [he]
    rcases h with ⟨t, ht⟩ | ⟨hm, h⟩
    · exact absurd ht (hv t)
    · exact inert_word (fun e => hm (String.toList_injective (by simpa using e))) h

/-- **C198** Any other measurement shows `{M}_{{C};{S}}`, `{M}_{{C}}`, `{M}_{{S}}` or `{M}`, an uncertainty the same in `\sigma(…)`. -/
theorem C198_default (x : MCS) (hm : Measurement (noErr x.m)) (hn : noErr x.m ∉ shown.map Prod.fst) (hc : Component x.c)
    (hs : SpeciesArg x.s) :
    let t := shownDefault.pick (decide (x.c ≠ "")) (decide (x.s ≠ ""))
    (oneTex x).toList = render (measText (noErr x.m)).toList (compText x.c).toList (makeSpecies x.s).toList
      (if isErr x.m then sigma ("", "") t else t) := by
  obtain ⟨h1, h2⟩ := default_ok
  obtain ⟨c1, c2⟩ := isEmpty_iff_of (component_inert hc)
  obtain ⟨s1, s2⟩ := isEmpty_iff_of (species_inert hs)
  have := text_of_row h1 h2 (measurement_inert hm) c1 s1 (isErr x.m)
  simp only [c2, s2] at this
  simp only []
  rw [← this]
  unfold oneTex
  rw [String.toList_ofList]
  simp only [templateOf]
  rw [lookup_none_of (by rw [shown_keys]; exact hn)]
  rfl

/-- **C198** the LaTeX of the documented components and measurements -/
theorem C198_components :
    (∀ a ∈ [("x", "X"), ("y", "Y"), ("z", "Z"), ("r", "R"), ("rho", "\\rho"), ("colat", "\\lambda"), ("lat", "\\theta"), ("lon", "\\phi"),
      ("R", "\\mathrm{R}"), ("scalar", "\\mathrm{scalar}"), ("theta", "\\theta"), ("phi", "\\phi"), ("per", "\\perp"), ("par", "\\parallel"),
      ("T", "T"), ("p", "p"), ("const", "\\mathrm{const}"), ("bv", "{\\mathbf{B} \\cdot \\mathbf{v}}"), ("dv", "\\Delta v")],
      compText a.1 = a.2) ∧
    (∀ a ∈ [("pth", "P"), ("beta", "\\beta"), ("dbeta", "\\Delta \\beta"), ("dv", "\\Delta v"), ("qhat", "\\widehat{q}"),
      ("Qhat", "\\widehat{q}"), ("theta", "\\theta")], measText a.1 = a.2) ∧
    (∀ c, (∀ t, (c, t) ∉ transComponent) → compText c = c) ∧ (∀ m, (∀ t, (m, t) ∉ transMeasurement) → measText m = m) := by
  refine ⟨by decide +kernel, by decide +kernel, ?_, ?_⟩
  · intro c h
    rcases lookup_getD_mem transComponent c with ⟨v, hv, he⟩ | ⟨hv, he⟩
    · exact absurd hv (h v)
    · exact he
  · intro m h
    rcases lookup_getD_mem transMeasurement m with ⟨v, hv, he⟩ | ⟨hv, he⟩
    · exact absurd hv (h v)
    · exact he

def noSubscript : List (String × String) := [("zp", "Z^+"), ("zm", "Z^-"), ("ep", "e^+"), ("em", "e^-"), ("ev", "e^v"), ("etot", "E"), ("eres", "e^r"), ("xhel", "e^c"),
  ("dn", "\\delta n"), ("gyro_freq", "\\Omega"), ("insta_power", "\\mathcal{P}"), ("SEP_spectrum_index", "\\gamma")]

theorem noSubscript_rows : ∀ a ∈ noSubscript, noErr (a.1 ++ "_err") = a.1 ∧ isErr (a.1 ++ "_err") = true := by decide +kernel

/-- **C198, violated** Missing parts leave debris: the uncertainty of an Elsasser variable, energy, gyrofrequency, … without species ends
in `_)`, so that the closing parenthesis becomes the subscript; a flux without species has empty parentheses; positions without component
begin with a subscript; the cosine of an angle and the energy of a species without component have a subscript to nothing. -/
theorem C198_debris (c s : String) (hc : Component c) (hs : SpeciesArg s) :
    (∀ a ∈ noSubscript, oneTex ⟨a.1 ++ "_err", c, ""⟩ = "\\sigma(" ++ a.2 ++ "_)") ∧
    oneTex ⟨"flux", "", ""⟩ = "\\mathrm{Flux}()" ∧
    (oneTex ⟨"gse", "", s⟩ = "_{\\mathrm{GSE}}" ∧ oneTex ⟨"hci", "", s⟩ = "_{\\mathrm{HCI}}" ∧
      oneTex ⟨"carr", "", s⟩ = "_\\mathrm{Carrington}") ∧
    (s ≠ "" → (oneTex ⟨"cos_theta", "", s⟩) = "\\cos \\theta_{_{" ++ makeSpecies s ++ "}}" ∧
      oneTex ⟨"e", "", s⟩ = "e\\left(_{" ++ makeSpecies s ++ "}\\right)") := by
  have hemp : ∀ m : String, ∀ a ∈ noSubscript, m = a.1 → ∃ big, (m, Shown.bySpecies big [.lit a.2]) ∈ shown ∧
      leftover m = fun _ hasS => ("", if hasS then "" else "_") := by
    intro m a ha hm
    simp only [noSubscript, List.mem_cons, List.not_mem_nil, or_false] at ha
    rcases ha with rfl | rfl | rfl | rfl | rfl | rfl | rfl | rfl | rfl | rfl | rfl | rfl <;> subst hm <;>
      exact ⟨_, by simp only [shown, List.mem_cons, true_or, or_true, Prod.mk.injEq]; simp; rfl, by funext _ _; simp [leftover]⟩
  refine ⟨?_, by decide +kernel, ?_, ?_⟩
  · intro a ha
    obtain ⟨h1, h2⟩ := noSubscript_rows a ha
    obtain ⟨big, hb, hl⟩ := hemp a.1 a ha rfl
    have := C198_text ⟨a.1 ++ "_err", c, ""⟩ (.bySpecies big [.lit a.2]) (by simpa only [h1] using hb) hc (Or.inl rfl)
    simp only [h1, h2, hl, if_true] at this
    apply String.toList_injective
    rw [this]
    cases decide (c ≠ "") <;> simp [Shown.pick, Shown.bySpecies, sigma, render]
  · have key : ∀ m u : String, (∃ big, (m, Shown.byComponent big [.lit u]) ∈ shown) → noErr m = m → isErr m = false →
        oneTex ⟨m, "", s⟩ = u := by
      intro m u ⟨big, hb⟩ h1 h2
      have := C198_text ⟨m, "", s⟩ (.byComponent big [.lit u]) (by simpa only [h1] using hb) (Or.inl rfl) hs
      simp only [h2, Bool.false_eq_true, if_false] at this
      apply String.toList_injective
      rw [this]
      cases decide (s ≠ "") <;> simp [Shown.pick, Shown.byComponent, render]
    refine ⟨key _ _ ⟨_, List.mem_of_getElem? (i := 2) rfl⟩ (by decide +kernel) (by decide +kernel),
      key _ _ ⟨_, List.mem_of_getElem? (i := 3) rfl⟩ (by decide +kernel) (by decide +kernel),
      key _ _ ⟨_, List.mem_of_getElem? (i := 5) rfl⟩ (by decide +kernel) (by decide +kernel)⟩
  · intro hne
    have key : ∀ m u v : String, (∃ a b d, (m, (⟨a, b, [.lit u, .S, .lit v], d⟩ : Shown)) ∈ shown) → noErr m = m → isErr m = false →
        oneTex ⟨m, "", s⟩ = u ++ makeSpecies s ++ v := by
      intro m u v ⟨a, b, d, hb⟩ h1 h2
      have := C198_text ⟨m, "", s⟩ _ (by simpa only [h1] using hb) (Or.inl rfl) hs
      simp only [h2, Bool.false_eq_true, if_false] at this
      apply String.toList_injective
      rw [this]
      simp [Shown.pick, render, hne]
    exact ⟨key _ _ _ ⟨_, _, _, List.mem_of_getElem? (i := 14) rfl⟩ (by decide +kernel) (by decide +kernel),
      key _ _ _ ⟨_, _, _, List.mem_of_getElem? (i := 29) rfl⟩ (by decide +kernel) (by decide +kernel)⟩

/-! ## C199: which labels are equal -/

/-- the first closing brace that closes nothing ends the text -/
theorem cut {v v' r r' : List Char} (hv : Neutral v) (hv' : Neutral v') (h : v ++ '}' :: r = v' ++ '}' :: r') : v = v' ∧ r = r' := by
  have key : ∀ {v v' r r' : List Char}, Neutral v → Neutral v' → v ++ '}' :: r = v' ++ '}' :: r' → v.length ≤ v'.length → v = v' ∧ r = r' := by
    intro v v' r r' hv hv' h hl
    have hp : v <+: v' := List.prefix_of_prefix_length_le (List.prefix_append v _) (h ▸ List.prefix_append v' _) hl
    obtain ⟨u, rfl⟩ := hp
    rw [List.append_assoc, List.append_cancel_left_eq] at h
    cases u with
    | nil => simpa using h
    | cons y u =>
      simp only [List.cons_append, List.cons.injEq] at h
      have hb := hv' 0
      rw [run_append, hv 0, ← h.1] at hb
      simp [run, step] at hb
  rcases le_total v.length v'.length with hl | hl
  · exact key hv hv' h hl
  · obtain ⟨h1, h2⟩ := key hv' hv h.symm hl
    exact ⟨h1.symm, h2.symm⟩

def subTail : List (List Char) → List Char
  | [] => ['}']
  | q :: qs => [';', '{'] ++ q ++ '}' :: subTail qs

def sub : List (List Char) → List Char
  | [] => []
  | p :: ps => ['_', '{', '{'] ++ p ++ '}' :: subTail ps

theorem subTail_inj : ∀ (ps qs : List (List Char)), (∀ p ∈ ps, Neutral p) → (∀ q ∈ qs, Neutral q) → subTail ps = subTail qs → ps = qs := by
  intro ps
  induction ps with
  | nil =>
    intro qs _ _ h
    cases qs with
    | nil => rfl
    | cons q qs => simp [subTail] at h
  | cons p ps ih =>
    intro qs hp hq h
    cases qs with
    | nil => simp [subTail] at h
    | cons q qs =>
      simp only [subTail, List.cons_append, List.nil_append, List.cons.injEq, true_and] at h
      obtain ⟨h1, h2⟩ := cut (hp p List.mem_cons_self) (hq q List.mem_cons_self) h
      rw [h1, ih qs (fun x hx => hp x (List.mem_cons_of_mem _ hx)) (fun x hx => hq x (List.mem_cons_of_mem _ hx)) h2]

theorem sub_inj (ps qs : List (List Char)) (hp : ∀ p ∈ ps, Neutral p) (hq : ∀ q ∈ qs, Neutral q) (h : sub ps = sub qs) : ps = qs := by
  cases ps with
  | nil =>
    cases qs with
    | nil => rfl
    | cons q qs => simp [sub] at h
  | cons p ps =>
    cases qs with
    | nil => simp [sub] at h
    | cons q qs =>
      simp only [sub, List.cons_append, List.nil_append, List.cons.injEq, true_and] at h
      obtain ⟨h1, h2⟩ := cut (hp p List.mem_cons_self) (hq q List.mem_cons_self) h
      rw [h1, subTail_inj ps qs (fun x hx => hp x (List.mem_cons_of_mem _ hx)) (fun x hx => hq x (List.mem_cons_of_mem _ hx)) h2]

theorem neutral_join {sep : Char} (hsep : sep = ',' ∨ sep = '+') : ∀ ws : List (List Char), (∀ w ∈ ws, Neutral w) →
    Neutral (Chars.join sep ws) := by
  intro ws
  induction ws with
  | nil => intro _ d; rfl
  | cons w ws ih =>
    intro h
    have hw := h w List.mem_cons_self
    cases ws with
    | nil => exact hw
    | cons v ws =>
      have hv := ih (fun x hx => h x (List.mem_cons_of_mem _ hx))
      have h1 : Neutral [sep] := by rcases hsep with rfl | rfl <;> exact neutral_of_run (by decide +kernel)
      exact hw.append (h1.append hv)

theorem neutral_speciesArg {s : String} (h : SpeciesArg s) : Neutral (makeSpecies s).toList := by
  rcases h with rfl | ⟨sep, parts, hsep, hne, hp, rfl⟩
  · exact neutral_of_run (by decide +kernel)
  · have hs : ¬ CodeChar sep := by
      rcases hsep with rfl | rfl
      · exact sep_plus.2.1
      · exact sep_plus.1
    rw [C136_species sep hs parts hp]
    have : (pyJoin sep (parts.map Prod.snd)).toList = Chars.join sep ((parts.map Prod.snd).map String.toList) := by
      unfold pyJoin; simp
    rw [this]
    refine neutral_join hsep _ ?_
    intro w hw
    simp only [List.mem_map] at hw
    obtain ⟨t, ⟨p, hpm, rfl⟩, rfl⟩ := hw
    exact neutral_of_run (tables_ok.2.2 (p.1.toList, p.2.toList) (List.mem_map.mpr ⟨p, hp p hpm, rfl⟩))

theorem plain_word {w : String} (h : ∀ a ∈ w.toList, a.isAlphanum = true) : Plain w := by
  intro a ha
  have := h a ha
  refine ⟨?_, ?_, ?_, ?_⟩ <;> (rintro rfl; revert this; decide)

theorem neutral_component {c : String} (h : Component c) : Neutral (compText c).toList := by
  unfold compText
  rcases lookup_getD_mem transComponent c with ⟨v, hv, he⟩ | ⟨hv, he⟩
  · rw [he]
    exact neutral_of_run (tables_ok.2.1 _ hv)
  · rw [he]
    rcases h with rfl | ⟨t, ht⟩ | h
    · exact neutral_of_run (by decide +kernel)
    · exact absurd ht (hv t)
    · exact neutral_plain (plain_word h)

theorem neutral_measurement {m : String} (h : Measurement m) : Neutral (measText m).toList := by
  unfold measText
  rcases lookup_getD_mem transMeasurement m with ⟨v, hv, he⟩ | ⟨hv, he⟩
  · rw [he]
    exact neutral_of_run (tables_ok.1 _ hv)
  · rw [he]
    rcases h with ⟨t, ht⟩ | ⟨_, h⟩
    · exact absurd ht (hv t)
    · exact neutral_plain (plain_word h)

/-- the parts shown in the subscript, in their order -/
def shownParts (x : MCS) : List String := [compText x.c, makeSpecies x.s].filter (· ≠ "")

theorem default_form (x : MCS) (hm : Measurement (noErr x.m)) (hn : noErr x.m ∉ shown.map Prod.fst) (hc : Component x.c)
    (hs : SpeciesArg x.s) : (oneTex x).toList = (if isErr x.m then "\\sigma(".toList else []) ++
      ('{' :: ((measText (noErr x.m)).toList ++ '}' :: sub ((shownParts x).map String.toList))) ++ (if isErr x.m then [')'] else []) := by
  rw [C198_default x hm hn hc hs]
  have hC : compText x.c = "" ↔ x.c = "" := by
    rcases component_inert hc with ⟨h1, h2⟩ | ⟨h1, h2⟩
    · exact ⟨fun _ => h2, fun _ => String.toList_injective (by simpa using h1)⟩
    · refine ⟨fun e => ?_, fun e => absurd e h2⟩
      rw [e] at h1
      exact absurd rfl (inert_ne h1)
  have hS : makeSpecies x.s = "" ↔ x.s = "" := by
    rcases species_inert hs with ⟨h1, h2⟩ | ⟨h1, h2⟩
    · exact ⟨fun _ => h2, fun _ => String.toList_injective (by simpa using h1)⟩
    · refine ⟨fun e => ?_, fun e => absurd e h2⟩
      rw [e] at h1
      exact absurd rfl (inert_ne h1)
  have hd1 : (decide (x.c ≠ "") : Bool) = decide (compText x.c ≠ "") := by simp [hC]
  have hd2 : (decide (x.s ≠ "") : Bool) = decide (makeSpecies x.s ≠ "") := by simp [hS]
  simp only [hd1, hd2, shownParts]
  generalize compText x.c = C
  generalize makeSpecies x.s = S
  by_cases h1 : C = "" <;> by_cases h2 : S = "" <;> cases isErr x.m <;>
    simp [h1, h2, Shown.pick, shownDefault, sigma, render, sub, subTail, List.filter_cons]

/-- **C199** Labels of measurements without a text of their own are equal exactly if both or none is an uncertainty, the measurements have
the same LaTeX, and the sequences of what is shown in the subscript are the same. -/
theorem C199_equal (x y : MCS) (hm : Measurement (noErr x.m)) (hn : noErr x.m ∉ shown.map Prod.fst) (hc : Component x.c)
    (hs : SpeciesArg x.s) (hm' : Measurement (noErr y.m)) (hn' : noErr y.m ∉ shown.map Prod.fst) (hc' : Component y.c)
    (hs' : SpeciesArg y.s) :
    oneTex x = oneTex y ↔ isErr x.m = isErr y.m ∧ measText (noErr x.m) = measText (noErr y.m) ∧ shownParts x = shownParts y := by
  have hpart : ∀ z : MCS, Component z.c → SpeciesArg z.s → ∀ p ∈ (shownParts z).map String.toList, Neutral p := by
    intro z h1 h2 p hp
    simp only [List.mem_map] at hp
    obtain ⟨q, hq, rfl⟩ := hp
    have := List.mem_of_mem_filter hq
    simp only [List.mem_cons, List.not_mem_nil, or_false] at this
    rcases this with rfl | rfl
    · exact neutral_component h1
    · exact neutral_speciesArg h2
  have hinj : ∀ l l' : List String, l.map String.toList = l'.map String.toList → l = l' :=
    fun l l' h => List.map_injective_iff.mpr (fun _ _ e => String.toList_injective e) h
  constructor
  · intro h
    have ht := congrArg String.toList h
    rw [default_form x hm hn hc hs, default_form y hm' hn' hc' hs'] at ht
    have hbody : isErr x.m = isErr y.m ∧ (measText (noErr x.m)).toList ++ '}' :: sub ((shownParts x).map String.toList) =
        (measText (noErr y.m)).toList ++ '}' :: sub ((shownParts y).map String.toList) := by
      have hsg : "\\sigma(".toList = ['\\', 's', 'i', 'g', 'm', 'a', '('] := by decide +kernel
      rw [hsg] at ht
      cases h1 : isErr x.m <;> cases h2 : isErr y.m <;> rw [h1, h2] at ht <;> simp at ht
      · exact ⟨rfl, ht⟩
      · refine ⟨rfl, List.append_cancel_right (bs := [')']) ?_⟩
        simpa using ht
    obtain ⟨he, hb⟩ := hbody
    obtain ⟨h1, h2⟩ := cut (neutral_measurement hm) (neutral_measurement hm') hb
    exact ⟨he, String.toList_injective h1, hinj _ _ (sub_inj _ _ (hpart x hc hs) (hpart y hc' hs') h2)⟩
  · rintro ⟨h1, h2, h3⟩
    apply String.toList_injective
    rw [default_form x hm hn hc hs, default_form y hm' hn' hc' hs', h1, h2, h3]

theorem first_bracket {l l' r r' : List Char} (h : '[' ∉ l) (h' : '[' ∉ l') (e : l ++ '[' :: r = l' ++ '[' :: r') : l = l' ∧ r = r' := by
  induction l generalizing l' with
  | nil =>
    cases l' with
    | nil => simpa using e
    | cons a l' =>
      simp only [List.nil_append, List.cons_append, List.cons.injEq] at e
      exact absurd (List.mem_cons.mpr (Or.inl e.1)) h'
  | cons a l ih =>
    cases l' with
    | nil =>
      simp only [List.nil_append, List.cons_append, List.cons.injEq] at e
      exact absurd (List.mem_cons.mpr (Or.inl e.1.symm)) h
    | cons b l' =>
      simp only [List.cons_append, List.cons.injEq] at e
      obtain ⟨h1, h2⟩ := ih (fun hm => h (List.mem_cons_of_mem _ hm)) (fun hm => h' (List.mem_cons_of_mem _ hm)) e.2
      exact ⟨by rw [e.1, h1], h2⟩

theorem no_bracket_word {w : String} (h : ∀ a ∈ w.toList, a.isAlphanum = true) : '[' ∉ w.toList := by
  intro hm
  have := h _ hm
  revert this; decide

theorem no_bracket_tables : (∀ a ∈ species, '[' ∉ a.2.toList) ∧ (∀ a ∈ transComponent, '[' ∉ a.2.toList) ∧
    (∀ a ∈ transMeasurement, '[' ∉ a.2.toList) := by
  refine ⟨?_, ?_, ?_⟩ <;> decide +kernel

theorem no_bracket_join {sep : Char} (hsep : sep = ',' ∨ sep = '+') : ∀ ws : List (List Char), (∀ w ∈ ws, '[' ∉ w) →
    '[' ∉ Chars.join sep ws := by
  intro ws
  induction ws with
  | nil => intro _; simp [Chars.join]
  | cons w ws ih =>
    intro h
    have hw := h w List.mem_cons_self
    cases ws with
    | nil => exact hw
    | cons v ws =>
      have hv := ih (fun x hx => h x (List.mem_cons_of_mem _ hx))
      simp only [Chars.join, List.mem_append, List.mem_cons, not_or]
      refine ⟨hw, ?_, hv⟩
      rcases hsep with rfl | rfl <;> decide

theorem no_bracket (x : MCS) (hm : Measurement (noErr x.m)) (hn : noErr x.m ∉ shown.map Prod.fst) (hc : Component x.c)
    (hs : SpeciesArg x.s) : '[' ∉ (oneTex x).toList := by
  have h1 : '[' ∉ (measText (noErr x.m)).toList := by
    unfold measText
    rcases lookup_getD_mem transMeasurement (noErr x.m) with ⟨v, hv, he⟩ | ⟨hv, he⟩
    · rw [he]; exact no_bracket_tables.2.2 _ hv
    · rw [he]
      rcases hm with ⟨t, ht⟩ | ⟨_, h⟩
      · exact absurd ht (hv t)
      · exact no_bracket_word h
  have h2 : '[' ∉ (compText x.c).toList := by
    unfold compText
    rcases lookup_getD_mem transComponent x.c with ⟨v, hv, he⟩ | ⟨hv, he⟩
    · rw [he]; exact no_bracket_tables.2.1 _ hv
    · rw [he]
      rcases hc with h | ⟨t, ht⟩ | h
      · rw [h]; decide +kernel
      · exact absurd ht (hv t)
      · exact no_bracket_word h
  have h3 : '[' ∉ (makeSpecies x.s).toList := by
    rcases hs with h | ⟨sep, parts, hsep, hne, hp, h⟩
    · rw [h]; decide +kernel
    · have hs : ¬ CodeChar sep := by
        rcases hsep with rfl | rfl
        · exact sep_plus.2.1
        · exact sep_plus.1
      rw [h, C136_species sep hs parts hp]
      have : (pyJoin sep (parts.map Prod.snd)).toList = Chars.join sep ((parts.map Prod.snd).map String.toList) := by
        unfold pyJoin; simp
      rw [this]
      refine no_bracket_join hsep _ ?_
      intro w hw
      simp only [List.mem_map] at hw
      obtain ⟨t, ⟨p, hpm, rfl⟩, rfl⟩ := hw
      exact no_bracket_tables.1 p (hp p hpm)
  rw [C198_default x hm hn hc hs]
  have hsg : '[' ∉ "\\sigma(".toList := by decide +kernel
  generalize decide (x.c ≠ "") = b
  generalize decide (x.s ≠ "") = b'
  cases b <;> cases b' <;> cases isErr x.m <;> simp [Shown.pick, shownDefault, sigma, render, h1, h2, h3]

/-- **C199** The labels themselves (text and units, as compared and hashed): they are equal exactly if, in addition, the units are. -/
theorem C199_labels (x y : MCS) (newLine : Bool) (hm : Measurement (noErr x.m)) (hn : noErr x.m ∉ shown.map Prod.fst) (hc : Component x.c)
    (hs : SpeciesArg x.s) (hm' : Measurement (noErr y.m)) (hn' : noErr y.m ∉ shown.map Prod.fst) (hc' : Component y.c)
    (hs' : SpeciesArg y.s) :
    labelText x none none newLine = labelText y none none newLine ↔
      (isErr x.m = isErr y.m ∧ measText (noErr x.m) = measText (noErr y.m) ∧ shownParts x = shownParts y) ∧ oneUnits x = oneUnits y := by
  rw [← C199_equal x y hm hn hc hs hm' hn' hc' hs']
  have hu : ∀ z, labelUnits z none none = oneUnits z := fun z => rfl
  have htx : ∀ z, labelTex z none none = oneTex z := fun z => rfl
  constructor
  · intro h
    have ht := congrArg String.toList h
    obtain ⟨sep, hsep, hsb⟩ : ∃ sep : List Char, (" " ++ (if newLine then "$\n$" else "\\;") ++ " \\left").toList = sep ∧ '[' ∉ sep := by
      refine ⟨_, rfl, ?_⟩
      cases newLine <;> decide +kernel
    have hform : ∀ z, (labelText z none none newLine).toList = ('$' :: ((oneTex z).toList ++ sep)) ++ '[' :: ((oneUnits z).toList ++ "\\right]$".toList) := by
      intro z
      unfold labelText
      rw [hu, htx, ← hsep]
      simp [String.toList_append]
    rw [hform, hform] at ht
    have hno : ∀ z, '[' ∉ (oneTex z).toList → '[' ∉ '$' :: ((oneTex z).toList ++ sep) := by
      intro z hz
      simp [hz, hsb]
    obtain ⟨h1, h2⟩ := first_bracket (hno x (no_bracket x hm hn hc hs)) (hno y (no_bracket y hm' hn' hc' hs')) ht
    simp only [List.cons.injEq, true_and] at h1
    exact ⟨String.toList_injective (List.append_cancel_right h1), String.toList_injective (List.append_cancel_right h2)⟩
  · rintro ⟨h1, h2⟩
    unfold labelText
    rw [hu, hu, htx, htx, h1, h2]

/-- **C199** A label whose measurement shows only the species determines it. -/
theorem C199_species (m c c' s s' a b u : String) (hr : (m, Shown.bySpecies [.lit a, .S, .lit b] [.lit u]) ∈ shown)
    (hm : noErr m = m) (he : isErr m = false) (hc : Component c) (hc' : Component c') (hs : SpeciesArg s) (hs' : SpeciesArg s')
    (hlen : u.toList.length ≤ a.toList.length + b.toList.length) :
    oneTex ⟨m, c, s⟩ = oneTex ⟨m, c', s'⟩ ↔ makeSpecies s = makeSpecies s' := by
  have key : ∀ c s : String, Component c → SpeciesArg s → (oneTex ⟨m, c, s⟩).toList =
      if makeSpecies s = "" then u.toList else a.toList ++ (makeSpecies s).toList ++ b.toList := by
    intro c s hc hs
    have := C198_text ⟨m, c, s⟩ _ (by rw [hm]; exact hr) hc hs
    simp only [he, Bool.false_eq_true, if_false] at this
    rw [this]
    have hS : makeSpecies s = "" ↔ s = "" := by
      rcases species_inert hs with ⟨h1, h2⟩ | ⟨h1, h2⟩
      · exact ⟨fun _ => h2, fun _ => String.toList_injective (by simpa using h1)⟩
      · refine ⟨fun e => ?_, fun e => absurd e h2⟩
        rw [e] at h1
        exact absurd rfl (inert_ne h1)
    by_cases h2 : s = ""
    · rw [if_pos (hS.mpr h2)]
      by_cases h1 : c = "" <;> simp [h1, h2, Shown.pick, Shown.bySpecies, render]
    · rw [if_neg (fun h => h2 (hS.mp h))]
      by_cases h1 : c = "" <;> simp [h1, h2, Shown.pick, Shown.bySpecies, render]
  have hpos : ∀ s : String, makeSpecies s ≠ "" → 0 < (makeSpecies s).toList.length := by
    intro s h
    refine List.length_pos_iff.mpr (fun e => h (String.toList_injective (by simpa using e)))
  constructor
  · intro h
    have ht := congrArg String.toList h
    rw [key c s hc hs, key c' s' hc' hs'] at ht
    by_cases h1 : makeSpecies s = "" <;> by_cases h2 : makeSpecies s' = ""
    · rw [h1, h2]
    · rw [if_pos h1, if_neg h2] at ht
      have := congrArg List.length ht
      have hp := hpos s' h2
      simp only [List.length_append] at this
      omega
    · rw [if_neg h1, if_pos h2] at ht
      have := congrArg List.length ht
      have hp := hpos s h1
      simp only [List.length_append] at this
      omega
    · rw [if_neg h1, if_neg h2] at ht
      simp only [List.append_assoc, List.append_cancel_left_eq] at ht
      exact String.toList_injective (List.append_cancel_right ht)
  · intro h
    apply String.toList_injective
    rw [key c s hc hs, key c' s' hc' hs', h]

/-- **C199, violated** Labels of different quantities are equal: a component and a species with the same LaTeX (such as `p` and `dv`) give
the same text alone; the species of a magnetic field is not shown at all; the bi-Maxwellian protons look like the protons. -/
theorem C199_collisions (m c s s' : String) (hm : Measurement (noErr m)) (hn : noErr m ∉ shown.map Prod.fst) (hc : Component c)
    (hs : SpeciesArg s) (hs' : SpeciesArg s') (k : Option String) (newLine : Bool) :
    labelText ⟨m, "p", ""⟩ none k newLine = labelText ⟨m, "", "p"⟩ none k newLine ∧
    labelText ⟨m, "dv", ""⟩ none k newLine = labelText ⟨m, "", "dv"⟩ none k newLine ∧
    labelText ⟨"b", c, s⟩ none k newLine = labelText ⟨"b", c, s'⟩ none k newLine ∧
    labelText ⟨m, c, "p_bimax"⟩ none k newLine = labelText ⟨m, c, "p"⟩ none k newLine := by
  have lift : ∀ x y : MCS, oneTex x = oneTex y → oneUnits x = oneUnits y → labelText x none k newLine = labelText y none k newLine := by
    intro x y h1 h2
    simp only [labelText, labelUnits, rawUnits, labelTex, ratioTex, h1, h2]
  have hcode : ∀ k t, (k, t) ∈ species → SpeciesArg k := fun k t h =>
    Or.inr ⟨',', [(k, t)], Or.inl rfl, by simp, by simpa using h, by simp [pyJoin, Chars.join]⟩
  have hp : Component "p" := Or.inr (Or.inl ⟨"p", by decide +kernel⟩)
  have hd : Component "dv" := Or.inr (Or.inl ⟨"\\Delta v", by decide +kernel⟩)
  have e1 : [compText "p", makeSpecies ""].filter (· ≠ "") = [compText "", makeSpecies "p"].filter (· ≠ "") := by decide +kernel
  have e2 : [compText "dv", makeSpecies ""].filter (· ≠ "") = [compText "", makeSpecies "dv"].filter (· ≠ "") := by decide +kernel
  refine ⟨?_, ?_, ?_, ?_⟩
  · refine lift _ _ ?_ (by simp [oneUnits])
    refine (C199_equal ⟨m, "p", ""⟩ ⟨m, "", "p"⟩ hm hn hp (Or.inl rfl) hm hn (Or.inl rfl)
      (hcode "p" "p" (by decide +kernel))).mpr ⟨rfl, rfl, e1⟩
  · refine lift _ _ ?_ (by simp [oneUnits])
    refine (C199_equal ⟨m, "dv", ""⟩ ⟨m, "", "dv"⟩ hm hn hd (Or.inl rfl) hm hn (Or.inl rfl)
      (hcode "dv" "\\Delta v" (by decide +kernel))).mpr ⟨rfl, rfl, e2⟩
  · refine lift _ _ ?_ (by simp [oneUnits])
    apply String.toList_injective
    have hr : ("b", Shown.byComponent [.lit "B_{", .C, .lit "}"] [.lit "B"]) ∈ shown := List.mem_of_getElem? (i := 6) rfl
    have hb : noErr "b" = "b" := by decide +kernel
    have he : isErr "b" = false := by decide +kernel
    have h1 := C198_text ⟨"b", c, s⟩ _ (by rw [hb]; exact hr) hc hs
    have h2 := C198_text ⟨"b", c, s'⟩ _ (by rw [hb]; exact hr) hc hs'
    simp only [he, Bool.false_eq_true, if_false] at h1 h2
    rw [h1, h2]
    cases decide (c ≠ "") <;> cases decide (s ≠ "") <;> cases decide (s' ≠ "") <;> simp [Shown.pick, Shown.byComponent, render]
  · refine lift _ _ ?_ rfl
    unfold oneTex
    rw [show makeSpecies "p_bimax" = makeSpecies "p" by decide +kernel]

/-! Non-trivial instances. -/

example : Component "par" ∧ Component "q2" ∧ SpeciesArg "a,p1" := by
  refine ⟨Or.inr (Or.inl ⟨"\\parallel", by decide +kernel⟩), Or.inr (Or.inr (by decide +kernel)), ?_⟩
  exact Or.inr ⟨',', [("a", "\\alpha"), ("p1", "p_1")], Or.inl rfl, by simp, by decide +kernel, by decide +kernel⟩
example : Measurement (noErr "v_err") ∧ noErr "v_err" ∉ shown.map Prod.fst ∧ isErr "v_err" = true := by
  refine ⟨Or.inr ⟨by decide +kernel, by decide +kernel⟩, by decide +kernel, by decide +kernel⟩
example : oneTex ⟨"v_err", "par", "a,p1"⟩ = "\\sigma({v}_{{\\parallel};{\\alpha,p_1}})" ∧
    oneTex ⟨"ca", "par", "a,p1"⟩ = "C_{A;\\alpha,p_1}" ∧ oneTex ⟨"caani", "", "a"⟩ = "C^{(\\mathrm{Ani})}_{A;\\alpha}" := by decide +kernel
example : ("n", Shown.bySpecies [.lit "n_{", .S, .lit "}"] [.lit "n"]) ∈ shown ∧ noErr "n" = "n" ∧ isErr "n" = false :=
  ⟨List.mem_of_getElem? (i := 7) rfl, by decide +kernel, by decide +kernel⟩

end Labels
end SW
