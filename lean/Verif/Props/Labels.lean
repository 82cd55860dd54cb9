import Verif.Labels
import Mathlib.Order.Basic
import Mathlib.Data.String.Basic
import Mathlib.Data.List.Infix
import Mathlib.Tactic.Tauto

/-!
# C85-C87, C136-C143: plot labels
-/

namespace SW
namespace Labels

/-! ### C85: comparison -/

/-- C85: labels are equal iff their texts are, equal labels hash equally, `<` and `>` are the strict text order.  Violated: `<=` and `>=`
are strict too, so they differ from the text order exactly for equal labels, and no label satisfies `a <= a` or `a >= a`. -/
theorem C85_order (a b : String) (h : String → Int) :
    (pyEq a b = true ↔ a = b) ∧ (pyEq a b = true → pyHash h a = pyHash h b) ∧ (pyGt a b = true ↔ b < a) ∧ (pyLt a b = true ↔ a < b) ∧
    (pyLe a b = true ↔ a < b) ∧ (pyGe a b = true ↔ b < a) ∧ pyLe a a = false ∧ pyGe a a = false ∧
    (((pyLe a b = true ↔ a ≤ b) ∧ (pyGe a b = true ↔ b ≤ a)) ↔ a ≠ b) := by
  unfold pyGe pyLt pyGt pyEq pyHash pyLe
  refine ⟨by simp, by simp; rintro rfl; rfl, by simp, by simp, by simp, by simp, by simp, by simp, ?_⟩
  simp only [decide_eq_true_eq]
  constructor
  · rintro ⟨h1, _⟩ rfl
    exact lt_irrefl a (h1.mpr le_rfl)
  · intro hne
    exact ⟨⟨le_of_lt, fun h => lt_of_le_of_ne h hne⟩, ⟨le_of_lt, fun h => lt_of_le_of_ne h (Ne.symm hne)⟩⟩

/-- C85: sorting by `<` is sound: for any two labels exactly one of `a < b`, `a == b`, `a > b` holds. -/
theorem C85_trichotomy (a b : String) : (pyLt a b = true ∧ pyEq a b = false ∧ pyGt a b = false) ∨
    (pyLt a b = false ∧ pyEq a b = true ∧ pyGt a b = false) ∨ (pyLt a b = false ∧ pyEq a b = false ∧ pyGt a b = true) := by
  unfold pyLt pyGt pyEq
  simp only [decide_eq_true_eq, decide_eq_false_iff_not]
  rcases lt_trichotomy a b with h | h | h
  · exact Or.inl ⟨h, h.ne, h.asymm⟩
  · subst h; exact Or.inr (Or.inl ⟨lt_irrefl _, rfl, lt_irrefl _⟩)
  · exact Or.inr (Or.inr ⟨h.asymm, h.ne', h⟩)

/-! ### string lemmas -/

theorem toList_repl (old new s : String) : (repl old new s).toList = replGo old.toList new.toList 0 s.toList := by
  unfold repl; simp

theorem replGo_skip (old new : List Char) : ∀ (k : Nat) (pre cs : List Char), pre.length = k →
    replGo old new k (pre ++ cs) = replGo old new 0 cs := by
  intro k
  induction k with
  | zero => intro pre cs h; rw [List.length_eq_zero_iff.mp h]; rfl
  | succ k ih =>
    intro pre cs h
    cases pre with
    | nil => simp at h
    | cons a pre => simp only [List.cons_append, replGo]; exact ih pre cs (by simpa using h)

/-- at a match -/
theorem replGo_match (old new cs : List Char) (hne : old ≠ []) :
    replGo old new 0 (old ++ cs) = new ++ replGo old new 0 cs := by
  cases old with
  | nil => exact absurd rfl hne
  | cons a old =>
    have hp : (a :: old).isPrefixOf (a :: (old ++ cs)) = true := by
      rw [List.isPrefixOf_iff_prefix]; exact ⟨cs, by simp⟩
    rw [List.cons_append, replGo, if_pos hp]
    congr 1
    exact replGo_skip _ new _ old cs (by simp)

/-- at a character that does not start a match -/
theorem replGo_cons (old new : List Char) (c : Char) (cs : List Char) (h : ¬ old <+: c :: cs) :
    replGo old new 0 (c :: cs) = c :: replGo old new 0 cs := by
  rw [replGo, if_neg]
  rw [List.isPrefixOf_iff_prefix]; exact h

theorem replGo_head_ne (a : Char) (old new : List Char) (c : Char) (cs : List Char) (h : c ≠ a) :
    replGo (a :: old) new 0 (c :: cs) = c :: replGo (a :: old) new 0 cs := by
  apply replGo_cons
  rintro ⟨t, ht⟩
  simp at ht
  exact h ht.1.symm

/-- a string without the pattern is unchanged -/
theorem replGo_of_not_infix (old new : List Char) : ∀ cs, ¬ old <:+: cs → replGo old new 0 cs = cs := by
  intro cs
  induction cs with
  | nil => intro _; rfl
  | cons c cs ih =>
    intro h
    rw [replGo_cons old new c cs (fun hp => h hp.isInfix), ih]
    intro hi
    exact h (hi.trans (List.suffix_cons c cs).isInfix)

/-- single-character patterns act character by character -/
theorem replGo_single (a : Char) (new : List Char) : ∀ cs, replGo [a] new 0 cs = cs.flatMap (fun c => if c = a then new else [c]) := by
  intro cs
  induction cs with
  | nil => rfl
  | cons c cs ih =>
    rw [List.flatMap_cons]
    by_cases h : c = a
    · subst h
      have := replGo_match [c] new cs (by simp)
      rw [List.singleton_append] at this
      rw [this, ih, if_pos rfl]
    · rw [replGo_head_ne a [] new c cs h, ih, if_neg h]; rfl

/-! ### C86: units of labels -/

/-- "`k` is a documented measurement" -/
def Known (k : String) : Prop := ∃ u, (k, u) ∈ transUnits

/-- the units are the table's entry -/
theorem unitsOf_mem {k u : String} (h : (k, u) ∈ transUnits) : unitsOf k = u := by
  have hnd : (transUnits.map Prod.fst).Nodup := by decide +kernel
  unfold unitsOf
  have : ∀ l : List (String × String), (l.map Prod.fst).Nodup → (k, u) ∈ l → l.lookup k = some u := by
    intro l
    induction l with
    | nil => intro _ h; simp at h
    | cons a l ih =>
      obtain ⟨k', u'⟩ := a
      intro hnd hm
      rw [List.map_cons, List.nodup_cons] at hnd
      rcases List.mem_cons.mp hm with h | h
      · rw [Prod.mk.injEq] at h; obtain ⟨rfl, rfl⟩ := h; simp [List.lookup]
      · have hne : k ≠ k' := by
          rintro rfl; exact hnd.1 (List.mem_map.mpr ⟨(k, u), h, rfl⟩)
        rw [List.lookup_cons]
        have : (k == k') = false := by simpa using hne
        rw [this]
        exact ih hnd.2 h
  rw [this _ hnd h]; rfl

theorem unitsOf_unknown {k : String} (h : ¬ Known k) : unitsOf k = "???" := by
  unfold unitsOf
  have : transUnits.lookup k = none := by
    rw [List.lookup_eq_none_iff]
    rintro ⟨k', u⟩ hm
    simp only [ne_eq, bne_iff_ne]
    rintro rfl
    exact h ⟨u, hm⟩
  rw [this]; rfl

/-- error labels have the units of the quantity -/
theorem C86_error_units (m : String) (h : ¬ "_err".toList <:+: m.toList) :
    noErr m = m ∧ noErr (m ++ "_err") = m ∧ unitsOf (noErr (m ++ "_err")) = unitsOf m := by
  have h1 : noErr m = m := by
    unfold noErr
    apply String.toList_injective
    rw [toList_repl, replGo_of_not_infix _ _ _ h]
  have h2 : noErr (m ++ "_err") = m := by
    unfold noErr
    apply String.toList_injective
    rw [toList_repl, String.toList_append]
    have key : ∀ l : List Char, ¬ "_err".toList <:+: l → replGo "_err".toList "".toList 0 (l ++ "_err".toList) = l := by
      intro l
      induction l with
      | nil => intro _; decide
      | cons a l ih =>
        intro hni
        have hno : ¬ "_err".toList <+: a :: (l ++ "_err".toList) := by
          intro hp
          match l, hni with
          | [], _ => revert hp; simp [List.cons_prefix_cons]
          | [b], _ => revert hp; simp [List.cons_prefix_cons]
          | [b, c], _ => revert hp; simp [List.cons_prefix_cons]
          | b :: c :: d :: r, hni =>
            apply hni
            have : "_err".toList <+: a :: b :: c :: d :: r := by
              revert hp; simp [List.cons_prefix_cons]
            exact this.isInfix
        rw [List.cons_append, replGo_cons _ _ _ _ hno, ih]
        intro hi
        exact hni (hi.trans (List.suffix_cons a l).isInfix)
    exact key _ h
  exact ⟨h1, h2, by rw [h2]⟩

/-- the coordinate components with their own units -/
def Angular (c : String) : Prop := c = "lat" ∨ c = "colat" ∨ c = "lon"

/-- C86: a single label has its measurement's units (degrees for angular components, `???` if unknown); a ratio without angular
components is dimensionless iff the units agree, otherwise `u0/u1`; any normalisation makes a label dimensionless. -/
theorem C86_units (x y : MCS) (k : String) :
    (∀ u, (noErr x.m, u) ∈ transUnits → ¬ Angular x.c → labelUnits x none none = u) ∧
    (Angular x.c → labelUnits x none none = "\\mathrm{deg.}") ∧
    (¬ Angular x.c → ¬ Known (noErr x.m) → labelUnits x none none = "???") ∧
    (¬ Angular x.c → ¬ Angular y.c → labelUnits x (some y) none =
      if labelUnits x none none = labelUnits y none none then "\\#" else labelUnits x none none ++ "/" ++ labelUnits y none none) ∧
    labelUnits x none (some k) = "\\#" ∧ labelUnits x (some y) (some k) = "\\#" := by
  have hone : ∀ z : MCS, ¬ Angular z.c → labelUnits z none none = unitsOf (noErr z.m) := by
    intro z hz
    unfold labelUnits rawUnits oneUnits
    simp only [Option.isSome_none, Bool.false_eq_true, if_false]
    exact if_neg hz
  refine ⟨?_, ?_, ?_, ?_, ?_, ?_⟩
  · intro u hu hx; rw [hone x hx]; exact unitsOf_mem hu
  · intro hx
    unfold labelUnits rawUnits oneUnits
    simp only [Option.isSome_none, Bool.false_eq_true, if_false]
    rw [if_pos (show x.c = "lat" ∨ x.c = "colat" ∨ x.c = "lon" from hx)]
    rcases hx with h | h | h <;> rw [h] <;> decide +kernel
  · intro hx hk; rw [hone x hx]; exact unitsOf_unknown hk
  · intro hx hy
    rw [hone x hx, hone y hy]
    unfold labelUnits rawUnits
    simp only [Option.isSome_none, Bool.false_eq_true, if_false]
  · unfold labelUnits; simp
  · unfold labelUnits; simp

/-- C86 (violated): the ratio of two unknown quantities is labelled dimensionless, whatever they are. -/
theorem C86_unknown (x y : MCS) (hx : ¬ Known (noErr x.m)) (hy : ¬ Known (noErr y.m)) : labelUnits x (some y) none = "\\#" := by
  unfold labelUnits rawUnits
  simp [unitsOf_unknown hx, unitsOf_unknown hy]

/-- C86 (violated): the ratio of an angular component to any other component of the same quantity is labelled dimensionless although
the two have different units. -/
theorem C86_angular (m s s' c c' : String) (hc : Angular c) (hc' : ¬ Angular c') (u : String) (hu : (noErr m, u) ∈ transUnits)
    (hne : u ≠ "\\mathrm{deg.}") :
    labelUnits ⟨m, c, s⟩ (some ⟨m, c', s'⟩) none = "\\#" ∧ labelUnits ⟨m, c, s⟩ none none ≠ labelUnits ⟨m, c', s'⟩ none none := by
  constructor
  · unfold labelUnits rawUnits; simp
  · rw [(C86_units ⟨m, c, s⟩ ⟨m, c', s'⟩ "").2.1 hc, (C86_units ⟨m, c', s'⟩ ⟨m, c', s'⟩ "").1 u hu hc']
    exact hne.symm

/-- non-vacuity: `v` with components `lat` and `x` -/
example : ("v", "\\mathrm{km \\; s^{-1}}") ∈ transUnits ∧ noErr "v" = "v" := by decide +kernel
example : ¬ Known "foo" := by
  rintro ⟨u, hu⟩
  have : "foo" ∈ transUnits.map Prod.fst := List.mem_map.mpr ⟨_, hu, rfl⟩
  revert this; decide +kernel

/-! ### C136: species substitution -/

def alts : List (List Char × List Char) := species.map (fun a => (a.1.toList, a.2.toList))

theorem makeSpecies_toList (s : String) : (makeSpecies s).toList = substGo alts 0 s.toList := by
  unfold makeSpecies alts; simp

theorem substGo_skip (alts : List (List Char × List Char)) : ∀ (k : Nat) (pre cs : List Char), pre.length = k →
    substGo alts k (pre ++ cs) = substGo alts 0 cs := by
  intro k
  induction k with
  | zero => intro pre cs h; rw [List.length_eq_zero_iff.mp h]; rfl
  | succ k ih =>
    intro pre cs h
    cases pre with
    | nil => simp at h
    | cons a pre => simp only [List.cons_append, substGo]; exact ih pre cs (by simpa using h)

/-- for each species code the first alternative matching it is the code itself -/
theorem first_alt : ∀ a ∈ alts, alts.find? (fun b => b.1.isPrefixOf a.1) = some a := by decide +kernel

/-- characters occurring in species codes -/
def CodeChar (c : Char) : Prop := ∃ a ∈ species, c ∈ a.1.toList

theorem prefix_of_sep {k rest b : List Char} (hrest : ∀ c, rest.head? = some c → c ∉ b) (h : b <+: k ++ rest) : b <+: k := by
  rcases Nat.lt_or_ge k.length b.length with hl | hl
  · exfalso
    obtain ⟨t, ht⟩ := h
    cases rest with
    | nil => have := congrArg List.length ht; simp at this; omega
    | cons c rest =>
      apply hrest c rfl
      have hget : (b ++ t)[k.length]? = some c := by rw [ht]; simp
      rw [List.getElem?_append_left hl] at hget
      exact List.mem_of_getElem? hget
  · exact List.prefix_of_prefix_length_le h (List.prefix_append k rest) hl

theorem find?_congr' {α : Type} {p q : α → Bool} : ∀ {l : List α}, (∀ a ∈ l, p a = q a) → l.find? p = l.find? q := by
  intro l
  induction l with
  | nil => intro _; rfl
  | cons a l ih =>
    intro h
    rw [List.find?_cons, List.find?_cons, h a (by simp), ih (fun b hb => h b (by simp [hb]))]

/-- one code followed by a separator or the end -/
theorem subst_code {k tr : String} (hk : (k, tr) ∈ species) {rest : List Char} (hrest : ∀ c, rest.head? = some c → ¬ CodeChar c) :
    substGo alts 0 (k.toList ++ rest) = tr.toList ++ substGo alts 0 rest := by
  have hmem : (k.toList, tr.toList) ∈ alts := List.mem_map.mpr ⟨(k, tr), hk, rfl⟩
  have hcongr : alts.find? (fun b => b.1.isPrefixOf (k.toList ++ rest)) = alts.find? (fun b => b.1.isPrefixOf k.toList) := by
    apply find?_congr'
    intro b hb
    rw [Bool.eq_iff_iff, List.isPrefixOf_iff_prefix, List.isPrefixOf_iff_prefix]
    constructor
    · intro h
      refine prefix_of_sep ?_ h
      intro c hc hcb
      obtain ⟨a, ha, rfl⟩ := List.mem_map.mp hb
      exact hrest c hc ⟨a, ha, hcb⟩
    · intro h; exact h.trans (List.prefix_append _ _)
  have hfirst : alts.find? (fun b => b.1.isPrefixOf (k.toList ++ rest)) = some (k.toList, tr.toList) := by
    rw [hcongr]; exact first_alt _ hmem
  cases hkl : k.toList with
  | nil =>
    exfalso
    have : ∀ a ∈ alts, a.1 ≠ [] := by decide +kernel
    exact this _ hmem hkl
  | cons c cs =>
    rw [hkl] at hfirst
    rw [List.cons_append] at hfirst ⊢
    rw [substGo, hfirst]
    simp only [List.length_cons, Nat.add_sub_cancel]
    rw [substGo_skip alts cs.length cs rest rfl]

/-- a separator is kept -/
theorem subst_sep {c : Char} (hc : ¬ CodeChar c) (cs : List Char) : substGo alts 0 (c :: cs) = c :: substGo alts 0 cs := by
  have : alts.find? (fun a => a.1.isPrefixOf (c :: cs)) = none := by
    rw [List.find?_eq_none]
    intro a ha hp
    rw [List.isPrefixOf_iff_prefix] at hp
    obtain ⟨b, hb, rfl⟩ := List.mem_map.mp ha
    have hne : ∀ a ∈ alts, a.1 ≠ [] := by decide +kernel
    cases hbl : b.1.toList with
    | nil => exact hne _ ha hbl
    | cons d ds =>
      simp only [hbl] at hp
      obtain ⟨t, ht⟩ := hp
      simp at ht
      apply hc
      exact ⟨b, hb, by rw [hbl, ht.1]; simp⟩
  rw [substGo, this]

/-- the LaTeX form of a species code -/
def codeTex (k : String) : String := (species.lookup k).getD k

/-- C136: in any list of documented species codes, joined by a character that occurs in no code (such as `+` or `,`), every code is
replaced by its own LaTeX form — never by that of a shorter code — and the separators stay. -/
theorem C136_species (sep : Char) (hsep : ¬ CodeChar sep) (parts : List (String × String)) (hp : ∀ p ∈ parts, p ∈ species) :
    makeSpecies (pyJoin sep (parts.map Prod.fst)) = pyJoin sep (parts.map Prod.snd) := by
  apply String.toList_injective
  rw [makeSpecies_toList]
  have htl : ∀ l : List String, (pyJoin sep l).toList = Chars.join sep (l.map String.toList) := by
    intro l; unfold pyJoin; simp
  rw [htl, htl, List.map_map, List.map_map]
  have key : ∀ ps : List (String × String), (∀ p ∈ ps, p ∈ species) →
      substGo alts 0 (Chars.join sep (ps.map (String.toList ∘ Prod.fst))) = Chars.join sep (ps.map (String.toList ∘ Prod.snd)) := by
    intro ps
    induction ps with
    | nil => intro _; rfl
    | cons p ps ih =>
      intro hp
      have h1 := hp p (by simp)
      cases ps with
      | nil =>
        simp only [List.map_cons, List.map_nil, Chars.join, Function.comp_apply]
        have := subst_code (k := p.1) (tr := p.2) h1 (rest := []) (by simp)
        simpa [substGo] using this
      | cons q ps =>
        simp only [List.map_cons, Chars.join, Function.comp_apply]
        rw [subst_code (k := p.1) (tr := p.2) h1 (by intro c hc; simp at hc; subst hc; exact hsep), subst_sep hsep]
        have := ih (fun p hm => hp p (by simp [hm]))
        simp only [List.map_cons, Function.comp_apply] at this
        rw [this]
  exact key parts hp

theorem sep_plus : ¬ CodeChar '+' ∧ ¬ CodeChar ',' ∧ ¬ CodeChar ' ' := by
  refine ⟨?_, ?_, ?_⟩ <;> (rintro ⟨a, ha, hc⟩; revert hc; revert a; decide +kernel)

/-- C136 (violated): a species that is not documented is cut into documented ones: calcium and sodium contain carbon, nitrogen and the
alpha particle. -/
theorem C136_unknown : makeSpecies "Ca" = "\\mathrm{C}\\alpha" ∧ makeSpecies "Na" = "\\mathrm{N}\\alpha" ∧
    ¬ (∃ t, ("Ca", t) ∈ species) := by
  refine ⟨by decide +kernel, by decide +kernel, ?_⟩
  rintro ⟨t, ht⟩
  have : "Ca" ∈ species.map Prod.fst := List.mem_map.mpr ⟨_, ht, rfl⟩
  revert this; decide +kernel

example : makeSpecies "p_bimax+a1+3He" = "p+\\alpha_1+^{3}\\mathrm{He}" := by decide +kernel

/-! ### C87: ions -/

theorem toUpper_facts (c : Char) : c.toUpper.toLower = c.toLower ∧ c.toUpper.toUpper = c.toUpper ∧ c.toUpper.isAlpha = c.isAlpha := by
  by_cases h : 97 ≤ c.toNat ∧ c.toNat ≤ 122
  · have hc : c = Char.ofNat c.toNat := (Char.ofNat_toNat c).symm
    obtain ⟨n, hn⟩ : ∃ n, n = c.toNat := ⟨_, rfl⟩
    rw [← hn] at h hc
    rw [hc]
    have : ∀ k < 26, ((Char.ofNat (97 + k)).toUpper.toLower = (Char.ofNat (97 + k)).toLower ∧
        (Char.ofNat (97 + k)).toUpper.toUpper = (Char.ofNat (97 + k)).toUpper ∧
        (Char.ofNat (97 + k)).toUpper.isAlpha = (Char.ofNat (97 + k)).isAlpha) := by decide +kernel
    have h2 := this (n - 97) (by omega)
    rwa [show 97 + (n - 97) = n by omega] at h2
  · have : c.toUpper = c := by
      unfold Char.toUpper
      rw [dif_neg]
      intro hh
      apply h
      have h1 := UInt32.le_iff_toNat_le.mp hh.1
      have h2 := UInt32.le_iff_toNat_le.mp hh.2
      exact ⟨h1, h2⟩
    rw [this, this]; exact ⟨rfl, rfl, rfl⟩

theorem titleGo_upper : ∀ (l : List Char) (p : Bool), titleGo p (l.map Char.toUpper) = titleGo p l := by
  intro l
  induction l with
  | nil => intro p; rfl
  | cons c l ih =>
    intro p
    obtain ⟨h1, h2, h3⟩ := toUpper_facts c
    simp only [List.map_cons, titleGo, h1, h2, h3, ih]

/-- C87: a charge given as text is accepted iff Python's `int` reads it or it is `i` or `j`; integers are always accepted; the species
is spelled in title case, so ions differing only in the case of the species have the same text; the path uses `p`/`m` for the sign. -/
theorem C87_ion (sp q : String) (z : Int) :
    (parsesInt q = true ∨ q = "i" ∨ q = "j" → mkIon sp (.str q) = .ok ⟨title sp, .str q⟩) ∧
    (¬ (parsesInt q = true ∨ q = "i" ∨ q = "j") → mkIon sp (.str q) = .error .valueError) ∧
    mkIon sp (.int z) = .ok ⟨title sp, .int z⟩ ∧
    mkIon sp .none = .error .typeError ∧
    (∀ sp', sp.map Char.toUpper = sp'.map Char.toUpper → mkIon sp (.str q) = mkIon sp' (.str q)) ∧
    (∀ i, mkIon sp (.str q) = .ok i → ∃ p, i.path = .ok p ∧ p = title sp ++ "_" ++ repl "-" "m" (repl "+" "p" q)) := by
  have hdef : mkIon sp (.str q) = if parsesInt q = true ∨ q = "i" ∨ q = "j" then .ok ⟨title sp, .str q⟩ else .error .valueError := by
    unfold mkIon
    simp only []
    by_cases h1 : parsesInt q = true
    · simp [h1]
    · by_cases h2 : q = "i" ∨ q = "j" <;> simp [h1, h2]
  refine ⟨fun h => by rw [hdef, if_pos h], fun h => by rw [hdef, if_neg h], rfl, rfl, ?_, ?_⟩
  · intro sp' h
    have ht : title sp = title sp' := by
      unfold title
      congr 1
      have := congrArg String.toList h
      simp only [String.toList_map] at this
      rw [← titleGo_upper sp.toList, this, titleGo_upper]
    unfold mkIon
    simp only []
    rw [ht]
  · intro i hi
    rw [hdef] at hi
    split at hi
    · simp only [Except.ok.injEq] at hi; subst hi; exact ⟨_, rfl, rfl⟩
    · simp at hi

/-- C87 (violated): charges given as integers — the documented form — have a text but no save path, nor has any ratio with such an
ion. -/
theorem C87_int_charge (sp : String) (z : Int) (i j : Ion) (hi : mkIon sp (.int z) = .ok i) :
    i.tex = "{" ++ title sp ++ "}^{" ++ toString z ++ "}" ∧ i.path = .error .attributeError ∧
    ratioPath i j = .error .attributeError ∧ (j.path.isOk = true → ratioPath j i = .error .attributeError) := by
  have : i = ⟨title sp, .int z⟩ := by
    have h : (.ok ⟨title sp, .int z⟩ : Except PyErr Ion) = .ok i := hi
    simpa using h.symm
  subst this
  refine ⟨rfl, rfl, rfl, ?_⟩
  intro h
  unfold ratioPath
  rcases hj : j.path with e | p
  · rw [hj] at h; simp [Except.isOk, Except.toBool] at h
  · rfl

example : mkIon "FE" (.str "+12") = .ok ⟨"Fe", .str "+12"⟩ ∧ (⟨"Fe", .str "+12"⟩ : Ion).path = .ok "Fe_p12" :=
  ⟨rfl, by decide +kernel⟩
example : mkIon "he" (.str "2+") = .error .valueError := by rfl

/-! ### C137: descriptions -/

/-- C137: a description given on construction is shown on a line of its own above the label; the empty one is not shown.  Violated: set
afterwards it changes the text of every label except the main kind, `TeXlabel`, whose text never changes again. -/
theorem C137_description (body : String) (d d' : Option String) :
    (mkTeX body d).str = withDescription d body ∧ (mkOther body d).str = withDescription d body ∧
    ((mkOther body d).setDescription d').str = withDescription d' body ∧
    ((mkTeX body d).setDescription d').str = withDescription d body := ⟨rfl, rfl, rfl, rfl⟩

theorem withDescription_ne (body t : String) (ht : t ≠ "") : withDescription (some t) body ≠ body ∧
    withDescription (some "") body = body ∧ withDescription none body = body := by
  refine ⟨?_, rfl, rfl⟩
  unfold withDescription
  simp only [if_neg ht]
  intro h
  have := congrArg (fun s => s.toList.length) h
  simp at this
  omega

/-- C137 (violated): a label used as a dictionary key is lost when a description is added later: its text, hence in general its hash,
changes; conversely for a `TeXlabel` the new description is silently ignored. -/
theorem C137_mutable_key (body t : String) (ht : t ≠ "") (h : String → Int) (hinj : Function.Injective h) :
    pyHash h ((mkOther body none).setDescription (some t)).str ≠ pyHash h (mkOther body none).str ∧
    pyEq ((mkOther body none).setDescription (some t)).str (mkOther body none).str = false ∧
    ((mkTeX body none).setDescription (some t)).str = (mkTeX body none).str := by
  have hne := (withDescription_ne body t ht).1
  refine ⟨fun hh => hne (hinj hh), ?_, rfl⟩
  unfold pyEq
  exact decide_eq_false hne

/-! ### C138, C139: derived labels -/

/-- C138 (violated): constituents may be given as text according to the type checks; yet for every text the probability, absolute-value
and function labels raise AttributeError (comparison labels do accept text). -/
theorem C138_text_constituents (s fcn : String) (cmp : Option String) (b : Part) :
    probability (.str s) cmp = .error .attributeError ∧ absoluteValue (.str s) = .error .attributeError ∧
    mathFcn fcn (.str s) = .error .attributeError ∧
    comparisonUnits (.str s) b = .ok "???" ∧ comparisonUnits b (.str s) = .ok "???" := by
  refine ⟨rfl, rfl, rfl, ?_, ?_⟩
  · cases b <;> rfl
  · cases b with
    | str _ => rfl
    | label t p u => cases u <;> rfl

/-- C139: the absolute value of a label keeps its units.  Violated for labels without units (manual labels, dates, Carrington
rotations): the label is built but its text raises AttributeError. -/
theorem C139_absolute (t p u : String) :
    absoluteValueStr (.label t p (some u)) = .ok ("$\\left|" ++ t ++ "\\right| \\; \\left[" ++ u ++ "\\right]$") ∧
    absoluteValue (.label t p none) = .ok ("\\left|" ++ t ++ "\\right|", "abs-" ++ p) ∧
    absoluteValueStr (.label t p none) = .error .attributeError := by
  refine ⟨?_, rfl, rfl⟩
  unfold absoluteValueStr absoluteValue
  simp only [Part.tex, Part.path, Part.units, bind, Except.bind, Except.ok.injEq]
  apply String.toList_injective
  simp

/-! ### C140: save paths -/

theorem repl_comma (s : String) : (repl "," "" s).toList = s.toList.filter (fun c => decide (c ≠ ',')) := by
  rw [toList_repl]
  show replGo [','] [] 0 s.toList = _
  rw [replGo_single]
  induction s.toList with
  | nil => rfl
  | cons c l ih =>
    rw [List.flatMap_cons, ih]
    by_cases h : c = ',' <;> simp [h]

theorem repl_slash_filter (s : String) :
    (repl "/" "-OV-" s).toList.filter (fun c => decide (c ≠ ',')) =
      (repl "/" "-OV-" (String.ofList (s.toList.filter (fun c => decide (c ≠ ','))))).toList := by
  rw [toList_repl, toList_repl]
  have e : ∀ X : List Char, (String.ofList X).toList = X := fun X => String.toList_ofList
  rw [e (s.toList.filter _)]
  show (replGo ['/'] "-OV-".toList 0 s.toList).filter _ = replGo ['/'] "-OV-".toList 0 _
  rw [replGo_single, replGo_single]
  induction s.toList with
  | nil => rfl
  | cons c l ih =>
    rw [List.flatMap_cons, List.filter_append, ih]
    by_cases h : c = ','
    · subst h; simp
    · rw [List.filter_cons_of_pos (by simpa using h), List.flatMap_cons]
      congr 1
      by_cases h2 : c = '/'
      · subst h2; decide
      · simp [h2, h]

/-- text without its commas -/
def noComma (s : String) : String := String.ofList (s.toList.filter (fun c => decide (c ≠ ',')))

/-- C140 (violated): save paths ignore commas, so for every quantity the label of the species pair `a,p1` and that of the single name
`ap1` are saved under the same path. -/
theorem C140_comma (x y : MCS) (hm : noComma x.m = noComma y.m) (hc : noComma x.c = noComma y.c) (hs : noComma x.s = noComma y.s) :
    onePath x = onePath y := by
  have hin : ∀ z : MCS, repl "," "" (repl "/" "-OV-" z.m ++ "_" ++ repl "/" "-OV-" z.c ++ "_" ++ repl "/" "-OV-" z.s) =
      String.ofList ((repl "/" "-OV-" (noComma z.m)).toList ++ ['_'] ++ (repl "/" "-OV-" (noComma z.c)).toList ++ ['_'] ++
        (repl "/" "-OV-" (noComma z.s)).toList) := by
    intro z
    apply String.toList_injective
    rw [repl_comma, String.toList_ofList]
    simp only [String.toList_append, List.filter_append]
    rw [repl_slash_filter, repl_slash_filter, repl_slash_filter]
    rfl
  unfold onePath
  rw [hin x, hin y, hm, hc, hs]

example : onePath ⟨"v", "x", "a,p1"⟩ = onePath ⟨"v", "x", "ap1"⟩ ∧ onePath ⟨"v", "x", "ap1"⟩ = "v_x_ap1" :=
  ⟨C140_comma _ _ rfl rfl (by decide +kernel), by decide +kernel⟩

theorem repl_append_single (a : Char) (new s t : String) :
    repl (String.ofList [a]) new (s ++ t) = repl (String.ofList [a]) new s ++ repl (String.ofList [a]) new t := by
  apply String.toList_injective
  simp only [toList_repl, String.toList_append, String.toList_ofList, replGo_single, List.flatMap_append]

/-- the first four replacements of `<`/`>` texts cannot tell `\lt` from `\gt` -/
theorem lt_gt_chain (r : String) : repl "\\lt" "GT" (repl "\\gt" "GT" (repl "<" "LT" (repl ">" "GT" ("\\lt" ++ r)))) =
    repl "\\lt" "GT" (repl "\\gt" "GT" (repl "<" "LT" (repl ">" "GT" ("\\gt" ++ r)))) := by
  have e1 : ∀ p : String, repl ">" "GT" (p ++ r) = repl ">" "GT" p ++ repl ">" "GT" r := fun p => repl_append_single '>' "GT" p r
  have e2 : ∀ p r : String, repl "<" "LT" (p ++ r) = repl "<" "LT" p ++ repl "<" "LT" r := fun p r => repl_append_single '<' "LT" p r
  obtain ⟨R, hR⟩ : ∃ R, R = repl "<" "LT" (repl ">" "GT" r) := ⟨_, rfl⟩
  have f1 : repl "<" "LT" (repl ">" "GT" ("\\lt" ++ r)) = "\\lt" ++ R := by
    rw [e1, e2, hR, show repl "<" "LT" (repl ">" "GT" "\\lt") = "\\lt" by decide +kernel]
  have f2 : repl "<" "LT" (repl ">" "GT" ("\\gt" ++ r)) = "\\gt" ++ R := by
    rw [e1, e2, hR, show repl "<" "LT" (repl ">" "GT" "\\gt") = "\\gt" by decide +kernel]
  have g1 : repl "\\gt" "GT" ("\\lt" ++ R) = "\\lt" ++ repl "\\gt" "GT" R := by
    apply String.toList_injective
    simp only [toList_repl, String.toList_append]
    show replGo ['\\', 'g', 't'] ['G', 'T'] 0 ('\\' :: 'l' :: 't' :: R.toList) = _
    rw [replGo_cons _ _ _ _ (by simp [List.cons_prefix_cons]), replGo_head_ne _ _ _ _ _ (by decide),
      replGo_head_ne _ _ _ _ _ (by decide)]
    rfl
  have g2 : repl "\\gt" "GT" ("\\gt" ++ R) = "GT" ++ repl "\\gt" "GT" R := by
    apply String.toList_injective
    simp only [toList_repl, String.toList_append]
    exact replGo_match _ _ _ (by decide)
  have g3 : repl "\\lt" "GT" ("\\lt" ++ repl "\\gt" "GT" R) = "GT" ++ repl "\\lt" "GT" (repl "\\gt" "GT" R) := by
    apply String.toList_injective
    simp only [toList_repl (new := "GT") (old := "\\lt"), String.toList_append]
    exact replGo_match _ _ _ (by decide)
  have g4 : repl "\\lt" "GT" ("GT" ++ repl "\\gt" "GT" R) = "GT" ++ repl "\\lt" "GT" (repl "\\gt" "GT" R) := by
    apply String.toList_injective
    simp only [toList_repl (new := "GT") (old := "\\lt"), String.toList_append]
    show replGo ['\\', 'l', 't'] ['G', 'T'] 0 ('G' :: 'T' :: (repl "\\gt" "GT" R).toList) = _
    rw [replGo_head_ne _ _ _ _ _ (by decide), replGo_head_ne _ _ _ _ _ (by decide)]
    rfl
  rw [f1, f2, g1, g2, g3, g4]

/-- C140 (violated): the probability that something is less than a value and that it is greater are saved under the same path when
written with `\lt` and `\gt`. -/
theorem C140_lt_gt (t q r : String) (units : Option String) :
    compPath ("\\lt" ++ r) = compPath ("\\gt" ++ r) ∧
    ∃ t1 t2 path, probability (.label t q units) (some ("\\lt" ++ r)) = .ok (t1, path) ∧
      probability (.label t q units) (some ("\\gt" ++ r)) = .ok (t2, path) := by
  have key : compPath ("\\lt" ++ r) = compPath ("\\gt" ++ r) := by
    unfold compPath
    rw [lt_gt_chain]
  refine ⟨key, ?_⟩
  have hp : ∀ c, probability (.label t q units) (some c) = .ok (repl " " " \\, " ("\\mathrm{Prob.}(" ++ t ++ " " ++ c ++ ")"),
      "prob-" ++ repl " " "-" q ++ "-" ++ compPath c) := fun c => rfl
  rw [hp, hp, key]
  exact ⟨_, _, _, rfl, rfl⟩

example : compPath "\\lt 5" = "GT_5" ∧ compPath "< 5" = "LT_5" := by decide +kernel

/-! ### C141: comparison labels -/

/-- C141: a comparison is refused iff both constituents have units and these differ; otherwise it has the common units (`???` if one has
none).  Violated: a dimensionless quantity cannot be compared with a dimensionless ratio (they spell it differently). -/
theorem C141_units (ta pa ua tb pb ub : String) :
    (comparisonUnits (.label ta pa (some ua)) (.label tb pb (some ub)) = .error .valueError ↔ ua ≠ ub) ∧
    (ua = ub → comparisonUnits (.label ta pa (some ua)) (.label tb pb (some ub)) = .ok ua) ∧
    comparisonUnits (.label ta pa none) (.label tb pb (some ub)) = .ok "???" := by
  refine ⟨?_, ?_, rfl⟩
  · unfold comparisonUnits; by_cases h : ua = ub <;> simp [h]
  · intro h; unfold comparisonUnits; simp [h]

theorem C141_dimensionless (x y z : MCS) (hx : (noErr x.m, "\\mathrm{\\#}") ∈ transUnits) (hxc : ¬ Angular x.c)
    (hyc : ¬ Angular y.c) (hzc : ¬ Angular z.c) (hyz : labelUnits y none none = labelUnits z none none) (t p t' p' : String) :
    comparisonUnits (.label t p (some (labelUnits x none none))) (.label t' p' (some (labelUnits y (some z) none))) =
      .error .valueError := by
  have h1 : labelUnits x none none = "\\mathrm{\\#}" := (C86_units x x "").1 _ hx hxc
  have h2 : labelUnits y (some z) none = "\\#" := by rw [(C86_units y z "").2.2.2.1 hyc hzc, if_pos hyz]
  rw [h1, h2]
  rfl

/-- C141 (violated): a product keeps the units of its factors instead of their square, exactly like a sum; names other than the three
documented ones raise TypeError. -/
theorem C141_patterns (a b : Part) (name : String) :
    (∀ r, comparison a b "multiply" = .ok r → comparisonUnits a b = .ok r.2) ∧
    (name.map Char.toLower ∉ ["subtract", "add", "multiply"] → ∀ u, comparisonUnits a b = .ok u → comparison a b name = .error .typeError) := by
  constructor
  · intro r h
    unfold comparison at h
    rcases hu : comparisonUnits a b with e | u
    · rw [hu] at h; simp [bind, Except.bind] at h
    · rw [hu] at h
      have hp : comparisonPattern "multiply" = .ok " \\times " := by decide +kernel
      rw [hp] at h
      simp only [bind, Except.bind, Except.ok.injEq] at h
      rw [← h]
  · intro hn u hu
    unfold comparison
    rw [hu]
    have hp : comparisonPattern name = .error .typeError := by
      unfold comparisonPattern
      simp only [List.mem_cons, List.not_mem_nil, or_false, not_or] at hn
      simp [hn.1, hn.2.1, hn.2.2]
    rw [hp]
    rfl

/-! the clean-up loop -/

theorem replGo_length (old new : List Char) (h : new.length ≤ old.length) : ∀ (cs : List Char) (k : Nat),
    (replGo old new k cs).length ≤ cs.length - k := by
  intro cs
  induction cs with
  | nil => intro k; cases k <;> simp [replGo]
  | cons c cs ih =>
    intro k
    cases k with
    | succ k => rw [replGo]; have := ih k; simp; omega
    | zero =>
      rw [replGo]
      split
      · next hp =>
        rw [List.isPrefixOf_iff_prefix] at hp
        have hl := hp.length_le
        simp at hl
        have := ih (old.length - 1)
        rw [List.length_append]
        simp only [List.length_cons, Nat.sub_zero]
        rcases Nat.eq_zero_or_pos old.length with h0 | h0
        · omega
        · omega
      · have := ih 0; simp at this ⊢; exact this

/-- if the pattern occurs a shorter replacement makes the text shorter -/
theorem replGo_shorter (old new : List Char) (h : new.length < old.length) : ∀ (cs : List Char), old <:+: cs →
    (replGo old new 0 cs).length < cs.length := by
  intro cs
  induction cs with
  | nil =>
    intro hi
    rw [List.infix_nil] at hi
    rw [hi] at h; simp at h
  | cons c cs ih =>
    intro hi
    rw [replGo]
    split
    · next hp =>
      rw [List.isPrefixOf_iff_prefix] at hp
      have hl := hp.length_le
      simp at hl
      have := replGo_length old new h.le cs (old.length - 1)
      rw [List.length_append, List.length_cons]
      omega
    · next hp =>
      rw [List.isPrefixOf_iff_prefix] at hp
      rcases List.infix_cons_iff.mp hi with h' | h'
      · exact absurd h' hp
      · have := ih h'; simp; exact this

/-- the thin-space pair -/
def Doubled (s : String) : Prop := "\\,\\,".toList <:+: s.toList

/-- C141: the clean-up loop of comparison and correlation labels always ends and leaves no doubled thin space. -/
theorem C141_cleanup (s : String) : ¬ Doubled (squeeze s.toList.length s) := by
  have key : ∀ (n : Nat) (s : String), s.toList.length ≤ n → ¬ Doubled (squeeze n s) := by
    intro n
    induction n with
    | zero =>
      intro s hs hd
      unfold squeeze at hd
      have : s.toList = [] := List.length_eq_zero_iff.mp (by omega)
      unfold Doubled at hd
      rw [this, List.infix_nil] at hd
      exact absurd hd (by decide)
    | succ n ih =>
      intro s hs
      unfold squeeze
      by_cases hd : Doubled s
      · have hsh : (repl "\\,\\," "\\," s).toList.length < s.toList.length := by
          rw [toList_repl]; exact replGo_shorter _ _ (by decide) _ hd
        have hne : s ≠ repl "\\,\\," "\\," s := by
          intro h; rw [← h] at hsh; exact lt_irrefl _ hsh
        rw [if_neg hne]
        exact ih _ (by omega)
      · have : repl "\\,\\," "\\," s = s := by
          apply String.toList_injective
          rw [toList_repl]; exact replGo_of_not_infix _ _ _ hd
        rw [this, if_pos rfl]
        exact hd
  exact key _ s (le_refl _)

example : squeeze 9 "a\\,\\,\\,\\,b" = "a\\,b" := by decide +kernel

/-! ### C142, C143 -/

/-- C142 (violated): the units of a frequency should read `(…)^{-1}`; for every interval they read `(…)^-1`, which LaTeX sets as a
superscript minus followed by a 1. -/
theorem C142_frequency (o : Option (Int × String)) :
    frequencyUnits (timedeltaUnits o) = "(" ++ timedeltaUnits o ++ ")^-1" ∧
    frequencyUnits (timedeltaUnits o) ≠ "(" ++ timedeltaUnits o ++ ")^{-1}" := by
  have h : frequencyUnits (timedeltaUnits o) = "(" ++ timedeltaUnits o ++ ")^-1" := by
    unfold frequencyUnits
    apply String.toList_injective
    have : (toString (-1 : Int)) = "-1" := by decide +kernel
    rw [this]
    simp
  refine ⟨h, ?_⟩
  rw [h]
  intro hh
  have := congrArg (fun s => s.toList.length) hh
  simp at this

/-- C143: the normalisation of a measurement label may be `c`, `r`, `t`, `d` in any case or none; everything else (also `cd`, `rd`, which
histograms use) raises AssertionError. -/
theorem C143_axnorm (k : String) :
    setAxnorm none = .ok none ∧
    (k.map Char.toLower ∈ ["c", "r", "t", "d"] → setAxnorm (some k) = .ok (some (k.map Char.toLower))) ∧
    (k.map Char.toLower ∉ ["c", "r", "t", "d"] → setAxnorm (some k) = .error .assertionError) ∧
    setAxnorm (some "cd") = .error .assertionError ∧ setAxnorm (some "RD") = .error .assertionError := by
  refine ⟨rfl, ?_, ?_, by decide +kernel, by decide +kernel⟩
  · intro h
    unfold setAxnorm
    simp only [List.mem_cons, List.not_mem_nil, or_false] at h
    simp only [if_pos h]
  · intro h
    unfold setAxnorm
    simp only [List.mem_cons, List.not_mem_nil, or_false] at h
    simp only [if_neg h]

/-- C143: distances are accepted exactly in solar radii, Earth radii, astronomical units, metres and kilometres, in any case. -/
theorem C143_distance (s : String) :
    ((distanceUnits s).isOk = true ↔ s.map Char.toLower ∈ ["rs", "re", "au", "m", "km"]) ∧
    ((distanceUnits s).isOk = false → distanceUnits s = .error .notImplemented) := by
  have hlow : ∀ l : List Char, ∀ c ∈ l.map Char.toLower, ¬ (65 ≤ c.toNat ∧ c.toNat ≤ 90) := by
    intro l c hc
    obtain ⟨d, _, rfl⟩ := List.mem_map.mp hc
    by_cases h : 65 ≤ d.toNat ∧ d.toNat ≤ 90
    · have hd : d = Char.ofNat d.toNat := (Char.ofNat_toNat d).symm
      obtain ⟨n, hn⟩ : ∃ n, n = d.toNat := ⟨_, rfl⟩
      rw [← hn] at h hd
      rw [hd]
      have : ∀ k < 26, ¬ (65 ≤ (Char.ofNat (65 + k)).toLower.toNat ∧ (Char.ofNat (65 + k)).toLower.toNat ≤ 90) := by decide +kernel
      have h2 := this (n - 65) (by omega)
      rwa [show 65 + (n - 65) = n by omega] at h2
    · have : d.toLower = d := by
        unfold Char.toLower
        rw [dif_neg]
        intro hh
        exact h ⟨UInt32.le_iff_toNat_le.mp hh.1, UInt32.le_iff_toNat_le.mp hh.2⟩
      rw [this]; exact h
  have hR : s.map Char.toLower ≠ "R_{\\bigodot}" ∧ s.map Char.toLower ≠ "R_{\\oplus}" ∧ s.map Char.toLower ≠ "\\mathrm{AU}" := by
    have hh := hlow s.toList
    rw [← String.toList_map] at hh
    refine ⟨?_, ?_, ?_⟩
    · intro h; rw [h] at hh; exact hh 'R' (by decide) (by decide)
    · intro h; rw [h] at hh; exact hh 'R' (by decide) (by decide)
    · intro h; rw [h] at hh; exact hh 'A' (by decide) (by decide)
  unfold distanceUnits
  simp only []
  generalize s.map Char.toLower = u at *
  simp only [List.mem_cons, List.not_mem_nil, or_false]
  by_cases h1 : u = "rs"
  · subst h1; simp [Except.isOk, Except.toBool]
  by_cases h2 : u = "re"
  · subst h2; simp [Except.isOk, Except.toBool]
  by_cases h3 : u = "au"
  · subst h3; simp [Except.isOk, Except.toBool]
  by_cases h4 : u = "m"
  · subst h4; simp [Except.isOk, Except.toBool]
  by_cases h5 : u = "km"
  · subst h5; simp [Except.isOk, Except.toBool]
  simp [h1, h2, h3, h4, h5, hR.1, hR.2.1, hR.2.2, Except.isOk, Except.toBool]

end Labels
end SW
