import Verif.Props.Labels

/-!
# More on labels: C86 (units table), C87 (ratios), C136 (species text), C138 (function paths), C140-C143
-/

namespace SW
namespace Labels

/-! ### Units table -/

/-- the documented units of each quantity, grouped by unit -/
def unitGroups : List (String × List String) := [
  ("\\mathrm{nT}", ["b"]),
  ("\\mathrm{cm}^{-3}", ["n", "dn"]),
  ("m_p \\; \\mathrm{cm}^{-3}", ["rho"]),
  ("\\mathrm{km \\; s^{-1}}", ["v", "w", "dv", "cs", "ca", "caani", "e", "zp", "zm"]),
  ("(\\mathrm{km \\; s^{-1}})^2", ["ep", "em", "ev", "etot", "eres", "xhel"]),
  ("\\mathrm{pPa}", ["p", "pth", "pdv"]),
  ("10^5 \\, \\mathrm{K}", ["T"]),
  ("\\mathrm{mW \\, cm^{-2}}", ["q", "Q"]),
  ("10^{-7} \\mathrm{Hz}", ["nuc"]),
  ("\\mathrm{Hz}", ["omegaR", "gamma", "gamma_max", "gyro_freq"]),
  ("\\mathrm{deg.}", ["colat", "lat", "lon", "carr", "theta", "phi", "deg"]),
  ("\\mathrm{\\#}", ["cos", "cos_theta", "afsq", "qhat", "beta", "edv", "lnlambda", "nc", "chisq", "chisqnu", "VDFratio", "sigma_m",
    "sigma_c", "sigma_r", "sigma_xy", "ra", "re", "Wn", "kvec", "k", "MgII", "spectral_exponent", "SEP_spectrum_index"])]

/-- C86: a plain label (or the label of an uncertainty) of a listed quantity, not an angular component, carries that quantity's units. -/
theorem C86_table (m u c s : String) (ms : List String) (hu : (u, ms) ∈ unitGroups) (hm : m ∈ ms) (hc : ¬ Angular c) :
    labelUnits ⟨m, c, s⟩ none none = u ∧ labelUnits ⟨m ++ "_err", c, s⟩ none none = u := by
  have key : ∀ g ∈ unitGroups, ∀ m ∈ g.2, (noErr m, g.1) ∈ transUnits ∧ (noErr (m ++ "_err"), g.1) ∈ transUnits := by decide +kernel
  obtain ⟨h1, h2⟩ := key _ hu m hm
  exact ⟨(C86_units ⟨m, c, s⟩ ⟨m, c, s⟩ "").1 _ h1 hc, (C86_units ⟨m ++ "_err", c, s⟩ ⟨m, c, s⟩ "").1 _ h2 hc⟩

/-! ### Species text -/

/-- the chemical elements with a code of their own -/
def elements : List String := ["H", "He", "C", "N", "O", "Ne", "Mg", "Si", "S", "Fe"]

/-- C136: an element is set upright, an isotope code with its mass number as superscript before the element, the particle species as
listed. -/
theorem C136_text :
    (∀ e ∈ elements, makeSpecies e = "\\mathrm{" ++ e ++ "}") ∧
    (∀ p ∈ [("3", "He"), ("4", "He"), ("12", "C"), ("14", "N"), ("16", "O"), ("20", "Ne"), ("24", "Mg"), ("28", "Si"), ("32", "S"),
        ("40", "Ca")], makeSpecies (p.1 ++ p.2) = "^{" ++ p.1 ++ "}\\mathrm{" ++ p.2 ++ "}") ∧
    (∀ p ∈ [("p", "p"), ("p1", "p_1"), ("p2", "p_2"), ("p_bimax", "p"), ("a", "\\alpha"), ("a1", "\\alpha_1"), ("a2", "\\alpha_2"),
        ("e", "e^-"), ("he", "\\mathrm{He}"), ("dv", "\\Delta v")], makeSpecies p.1 = p.2) ∧
    species.length = 10 + 10 + 10 := by
  refine ⟨?_, ?_, ?_, by decide⟩ <;> decide +kernel

/-! ### Paths -/

/-- C140: the path of a ratio is the numerator's, `-OV-`, the denominator's; a normalised label is saved in a subdirectory named after
the normalisation. -/
theorem C140_structure (x y : MCS) (z : Option MCS) :
    labelPath x (some y) none = labelPath x none none ++ "-OV-" ++ labelPath y none none ∧
    ∀ k n, (k, n) ∈ [("c", "Cnorm"), ("r", "Rnorm"), ("t", "Tnorm"), ("d", "Dnorm")] →
      labelPath x z (some k) = labelPath x z none ++ "/" ++ n := by
  refine ⟨rfl, ?_⟩
  intro k n h
  have : ∀ p ∈ [("c", "Cnorm"), ("r", "Rnorm"), ("t", "Tnorm"), ("d", "Dnorm")],
      (String.map Char.toUpper p.1) ++ "norm" = p.2 := by decide +kernel
  have h' := this _ h
  show labelPath x z none ++ "/" ++ k.map Char.toUpper ++ "norm" = _
  rw [String.append_assoc, h']

/-- C87: the path of a charge-state ratio is the first ion's, `-OV-`, the second's. -/
theorem C87_ratio (sp sp' q q' : String) (i j : Ion) (hi : mkIon sp (.str q) = .ok i) (hj : mkIon sp' (.str q') = .ok j) :
    ∃ p p', i.path = .ok p ∧ j.path = .ok p' ∧ ratioPath i j = .ok (p ++ "-OV-" ++ p') := by
  obtain ⟨p, hp, _⟩ := (C87_ion sp q 0).2.2.2.2.2 i hi
  obtain ⟨p', hp', _⟩ := (C87_ion sp' q' 0).2.2.2.2.2 j hj
  refine ⟨p, p', hp, hp', ?_⟩
  unfold ratioPath
  rw [hp, hp']
  rfl

theorem single_gone (a : Char) (new s : String) (hn : a ∉ new.toList) : a ∉ (repl (String.ofList [a]) new s).toList := by
  rw [toList_repl, String.toList_ofList, replGo_single, List.mem_flatMap]
  rintro ⟨c, _, hc⟩
  by_cases h : c = a
  · rw [if_pos h] at hc; exact hn hc
  · rw [if_neg h, List.mem_singleton] at hc; exact h hc.symm

theorem single_keeps (a c : Char) (new s : String) (hn : c ∉ new.toList) (h : c ∉ s.toList) :
    c ∉ (repl (String.ofList [a]) new s).toList := by
  rw [toList_repl, String.toList_ofList, replGo_single, List.mem_flatMap]
  rintro ⟨d, hd, hc⟩
  by_cases h' : d = a
  · rw [if_pos h'] at hc; exact hn hc
  · rw [if_neg h', List.mem_singleton] at hc; subst hc; exact h hd

theorem single_id (a : Char) (new s : String) (h : a ∉ s.toList) : repl (String.ofList [a]) new s = s := by
  apply String.toList_injective
  rw [toList_repl, String.toList_ofList]
  apply replGo_of_not_infix
  rintro ⟨u, v, huv⟩
  apply h
  rw [← huv]; simp

/-- C138: the path of a function label starts with the function's name freed of braces, backslashes and slashes, so it stays inside one
directory level; a name without these characters is used as it is. -/
theorem C138_function_path (fcn t q : String) (u : Option String) :
    ∃ tex f, mathFcn fcn (.label t q u) = .ok (tex, f ++ "-" ++ q) ∧ (∀ c ∈ ['/', '{', '}', '\\'], c ∉ f.toList) ∧
      ((∀ c ∈ ['/', '{', '}', '\\'], c ∉ fcn.toList) → f = fcn) := by
  refine ⟨_, _, rfl, ?_, ?_⟩
  · intro c hc
    simp only [List.mem_cons, List.not_mem_nil, or_false] at hc
    rcases hc with rfl | rfl | rfl | rfl
    · exact single_gone '/' "-OV-" _ (by decide)
    · exact single_keeps '/' '{' "-OV-" _ (by decide) (single_keeps '\\' '{' "" _ (by decide) (single_keeps '}' '{' "" _ (by decide)
        (single_gone '{' "" _ (by decide))))
    · exact single_keeps '/' '}' "-OV-" _ (by decide) (single_keeps '\\' '}' "" _ (by decide) (single_gone '}' "" _ (by decide)))
    · exact single_keeps '/' '\\' "-OV-" _ (by decide) (single_gone '\\' "" _ (by decide))
  · intro h
    have h0 : repl "\\mathrm" "" fcn = fcn := by
      apply String.toList_injective
      rw [toList_repl]
      apply replGo_of_not_infix
      rintro ⟨a, b, hab⟩
      apply h '\\' (by decide)
      rw [← hab]; simp
    rw [h0]
    have h1 : repl "{" "" fcn = fcn := single_id '{' "" _ (h _ (by decide))
    have h2 : repl "}" "" fcn = fcn := single_id '}' "" _ (h _ (by decide))
    have h3 : repl "\\" "" fcn = fcn := single_id '\\' "" _ (h _ (by decide))
    have h4 : repl "/" "-OV-" fcn = fcn := single_id '/' "-OV-" _ (h _ (by decide))
    rw [h1, h2, h3, h4]

/-! ### Comparison, intervals, distances -/

/-- C141: the three operation names, in any case, put the matching sign between the two texts. -/
theorem C141_signs (a b : Part) (u : String) (hu : comparisonUnits a b = .ok u) (name sign : String)
    (h : (name.map Char.toLower, sign) ∈ [("subtract", " - "), ("add", " + "), ("multiply", " \\times ")]) :
    ∃ t, t = "{" ++ a.anyTex ++ "}" ++ sign ++ "{" ++ b.anyTex ++ "}" ∧ comparison a b name = .ok (squeeze t.length t, u) := by
  refine ⟨_, rfl, ?_⟩
  unfold comparison
  rw [hu]
  have hp : comparisonPattern name = .ok sign := by
    unfold comparisonPattern
    simp only []
    generalize name.map Char.toLower = n at *
    simp only [List.mem_cons, List.not_mem_nil, or_false, Prod.mk.injEq] at h
    rcases h with ⟨rfl, rfl⟩ | ⟨rfl, rfl⟩ | ⟨rfl, rfl⟩
    · rw [if_pos rfl]
    · rw [if_neg (by decide), if_pos rfl]
    · rw [if_neg (by decide), if_neg (by decide), if_pos rfl]
  rw [hp]
  rfl

/-- C142: the units of an interval show its number and its unit, for anything else question marks; different numbers give different
units. -/
theorem C142_interval (n n' : Int) (name : String) :
    timedeltaUnits (some (n, name)) = toString n ++ " \\; \\mathrm{" ++ name ++ "}" ∧ timedeltaUnits none = "???" ∧
    (timedeltaUnits (some (n, name)) = timedeltaUnits (some (n', name)) → toString n = toString n') := by
  refine ⟨rfl, rfl, ?_⟩
  intro h
  have h' : toString n ++ " \\; \\mathrm{" ++ name ++ "}" = toString n' ++ " \\; \\mathrm{" ++ name ++ "}" := h
  have := congrArg String.toList h'
  simp only [String.toList_append, List.append_assoc] at this
  apply String.toList_injective
  exact List.append_cancel_right this

/-- C143: what each accepted distance unit is shown as. -/
theorem C143_distance_text (s t : String)
    (h : (s.map Char.toLower, t) ∈ [("rs", "R_{\\bigodot}"), ("re", "R_{\\oplus}"), ("au", "\\mathrm{AU}"), ("m", "m"), ("km", "km")]) :
    distanceUnits s = .ok t := by
  unfold distanceUnits
  simp only []
  generalize s.map Char.toLower = n at *
  simp only [List.mem_cons, List.not_mem_nil, or_false, Prod.mk.injEq] at h
  rcases h with ⟨rfl, rfl⟩ | ⟨rfl, rfl⟩ | ⟨rfl, rfl⟩ | ⟨rfl, rfl⟩ | ⟨rfl, rfl⟩ <;> decide

example : distanceUnits "Rs" = .ok "R_{\\bigodot}" := C143_distance_text _ _ (by decide +kernel)

end Labels
end SW
