import Verif.Props.LabelTex

/-!
# Exactly which text a measurement label shows (C198, C199)
-/

namespace SW
namespace Labels

/-! ## Specification

What a reader sees: for every documented measurement the text with component and species, with one of them, with none.  `.C` and `.S`
stand for the component and the species as LaTeX. -/

inductive Tok
  | lit (s : String)
  | M
  | C
  | S

instance : Coe String Tok := ⟨.lit⟩

/-- the text with the values filled in -/
def render (m c s : List Char) : List Tok → List Char
  | [] => []
  | .lit t :: r => t.toList ++ render m c s r
  | .M :: r => m ++ render m c s r
  | .C :: r => c ++ render m c s r
  | .S :: r => s ++ render m c s r

structure Shown where
  both : List Tok
  onlyC : List Tok
  onlyS : List Tok
  neither : List Tok

def Shown.always (t : List Tok) : Shown := ⟨t, t, t, t⟩
/-- the component is not shown -/
def Shown.bySpecies (t u : List Tok) : Shown := ⟨t, u, t, u⟩
/-- the species is not shown -/
def Shown.byComponent (t u : List Tok) : Shown := ⟨t, t, u, u⟩

def Shown.pick (r : Shown) (hasC hasS : Bool) : List Tok :=
  if hasC then (if hasS then r.both else r.onlyC) else (if hasS then r.onlyS else r.neither)

def shown : List (String × Shown) := [
   ("year", .always ["\\mathrm{Year}"]),
   ("fdoy", .always ["\\mathrm{Fractional \\; Day \\; of \\; Year}"]),
   ("gse", .byComponent ["{", .C, "}_{\\mathrm{GSE}}"] ["_{\\mathrm{GSE}}"]),
   ("hci", .byComponent ["{", .C, "}_{\\mathrm{HCI}}"] ["_{\\mathrm{HCI}}"]),
   ("colat", .byComponent ["\\theta_{", .C, "}"] ["\\theta"]),
   ("carr", .byComponent ["{", .C, "}_\\mathrm{Carrington}"] ["_\\mathrm{Carrington}"]),
   ("b", .byComponent ["B_{", .C, "}"] ["B"]),
   ("n", .bySpecies ["n_{", .S, "}"] ["n"]),
   ("rho", .bySpecies ["\\rho_{", .S, "}"] ["\\rho"]),
   ("q", ⟨["q_{{", .C, "};{", .S, "}}"], ["q_{{", .C, "}}"], ["q_{{", .S, "}}"], ["q"]⟩),
   ("Q", ⟨["Q_{{", .C, "};{", .S, "}}"], ["Q_{{", .C, "}}"], ["Q_{{", .S, "}}"], ["Q"]⟩),
   ("S", .bySpecies ["S_{", .S, "}"] ["S"]),
   ("ratio", .always ["\\mathrm{Ratio}"]),
   ("cos", .always ["\\cos"]),
   ("cos_theta", ⟨["\\cos \\theta_{{", .C, "}_{", .S, "}}"], ["\\cos \\theta_{{", .C, "}}"], ["\\cos \\theta_{_{", .S, "}}"], ["\\cos \\theta"]⟩),
   ("cos_phi", ⟨["\\cos \\phi_{{", .C, "}_{", .S, "}}"], ["\\cos \\phi_{{", .C, "}}"], ["\\cos \\phi_{_{", .S, "}}"], ["\\cos \\phi"]⟩),
   ("cs", .bySpecies ["C_{s;", .S, "}"] ["C_{s}"]),
   ("ca", .bySpecies ["C_{A;", .S, "}"] ["C_{A}"]),
   ("afsq", .bySpecies ["\\mathrm{Anisotropy \\, Factor}^2_{", .S, "}"] ["\\mathrm{Anisotropy \\, Factor}^2"]),
   ("caani", ⟨["C^{(\\mathrm{Ani})}_{A;", .S, "} \\; (", .C, ")"], ["C^{(\\mathrm{Ani})}_{A} \\; (", .C, ")"], ["C^{(\\mathrm{Ani})}_{A;", .S, "}"], ["C^{(\\mathrm{Ani})}_{A}"]⟩),
   ("lnlambda", .bySpecies ["\\ln\\Lambda_{", .S, "}"] ["\\ln\\Lambda"]),
   ("nuc", ⟨["\\nu_{", .C, ",", .S, "}"], ["\\nu_{", .C, "}"], ["\\nu_{", .S, "}"], ["\\nu"]⟩),
   ("nc", .bySpecies ["N_{C;", .S, "}"] ["N_{C}"]),
   ("VDFratio", .bySpecies ["\\mathrm{ln}(\\frac{f_i}{f_j} \\left(v_i\\right)_{", .S, "})"] ["\\mathrm{ln}(\\frac{f_i}{f_j} \\left(v_i\\right))"]),
   ("chisq", .always ["\\chi^2"]),
   ("chisqnu", .always ["\\chi^2_\\nu"]),
   ("edv", .bySpecies ["P_{\\Delta v}/P_\\mathrm{th}|_{", .S, "}"] ["P_{\\Delta v}/P_\\mathrm{th}|"]),
   ("pdv", .bySpecies ["P_{\\Delta v_{", .S, "}}"] ["P_{\\Delta v}"]),
   ("ab", .bySpecies ["A_{", .S, "}"] ["A"]),
   ("e", ⟨["e\\left({", .C, "}_{", .S, "}\\right)"], ["e\\left({", .C, "}\\right)"], ["e\\left(_{", .S, "}\\right)"], ["e\\left(\\right)"]⟩),
   ("entropy", .bySpecies ["\\mathrm{S}_{", .S, "}"] ["\\mathrm{S}"]),
   ("zp", .bySpecies ["Z^+_{{", .S, "}}"] ["Z^+"]),
   ("zm", .bySpecies ["Z^-_{{", .S, "}}"] ["Z^-"]),
   ("ep", .bySpecies ["e^+_{{", .S, "}}"] ["e^+"]),
   ("em", .bySpecies ["e^-_{{", .S, "}}"] ["e^-"]),
   ("ev", .bySpecies ["e^v_{{", .S, "}}"] ["e^v"]),
   ("etot", .bySpecies ["E_{{", .S, "}}"] ["E"]),
   ("eres", .bySpecies ["e^r_{{", .S, "}}"] ["e^r"]),
   ("xhel", .bySpecies ["e^c_{{", .S, "}}"] ["e^c"]),
   ("sigma_c", .bySpecies ["\\sigma_{c;{", .S, "}}"] ["\\sigma_{c}"]),
   ("sigma_r", .bySpecies ["\\sigma_{r;{", .S, "}}"] ["\\sigma_{r}"]),
   ("sigma_m", .always ["\\sigma_{m}"]),
   ("sigma_xy", .always ["\\sigma_{\\parallel}"]),
   ("ra", .bySpecies ["r_{A;{", .S, "}}"] ["r_{A}"]),
   ("re", .bySpecies ["r_{E;{", .S, "}}"] ["r_{E}"]),
   ("dn", .bySpecies ["\\delta n_{{", .S, "}}"] ["\\delta n"]),
   ("Wn", .always ["\\mathrm{W_n}"]),
   ("gamma", .always ["\\gamma"]),
   ("gamma_max", .always ["\\gamma_\\mathrm{max}"]),
   ("omegaR", .always ["\\omega_R"]),
   ("gyro_freq", .bySpecies ["\\Omega_{{", .S, "}}"] ["\\Omega"]),
   ("eth", .always ["\\eth"]),
   ("kvec", ⟨["\\mathbf{k}_{", .C, "}\\rho_{", .S, "}"], ["\\mathbf{k}_{", .C, "}\\rho"], ["\\mathbf{k}\\rho_{", .S, "}"], ["\\mathbf{k}\\rho"]⟩),
   ("k", ⟨["k_{", .C, "}\\rho_{", .S, "}"], ["k_{", .C, "}\\rho"], ["k\\rho_{", .S, "}"], ["k\\rho"]⟩),
   ("insta_power", .bySpecies ["\\mathcal{P}_{{", .S, "}}"] ["\\mathcal{P}"]),
   ("Lalpha", .always ["\\mathrm{L}\\alpha"]),
   ("f10.7", .always ["\\mathrm{F}10.7"]),
   ("CaK", .always ["\\mathrm{CaK}"]),
   ("MgII", .always ["\\mathrm{MgII}"]),
   ("flux", ⟨["\\mathrm{Flux}_{", .C, "}({", .S, "})"], ["\\mathrm{Flux}_{", .C, "}()"], ["\\mathrm{Flux}({", .S, "})"], ["\\mathrm{Flux}()"]⟩),
   ("spectral_exponent", .always ["\\mathrm{Spectral \\, Exponent}"]),
   ("MeV/nuc", .always ["\\mathrm{Energy}"]),
   ("SEP_differential_flux", .bySpecies ["{{", .S, "}} \\: dJ/dE"] ["\\: dJ/dE"]),
   ("SEP_intensity", .bySpecies ["{{", .S, "}} \\: \\mathrm{Intensity}"] ["\\: \\mathrm{Intensity}"]),
   ("SEP_energy", .bySpecies ["{{", .S, "}} \\: \\mathrm{Energy}"] ["\\: \\mathrm{Energy}"]),
   ("SEP_spectrum_index", .bySpecies ["\\gamma_{{", .S, "}}"] ["\\gamma"])]

/-- any other measurement -/
def shownDefault : Shown := ⟨["{", .M, "}_{{", .C, "};{", .S, "}}"], ["{", .M, "}_{{", .C, "}}"], ["{", .M, "}_{{", .S, "}}"], ["{", .M, "}"]⟩

/-- What is left over inside `\sigma(…)` when the measurement is an uncertainty: the underscore of the missing subscript, a blank. -/
def leftover (m : String) (hasC hasS : Bool) : String × String :=
  if m ∈ ["zp", "zm", "ep", "em", "ev", "etot", "eres", "xhel", "dn", "gyro_freq", "insta_power", "SEP_spectrum_index"] then
    ("", if hasS then "" else "_")
  else if m ∈ ["cos_theta", "cos_phi"] then ("", if hasC || hasS then "" else "_")
  else if m ∈ ["SEP_differential_flux", "SEP_intensity", "SEP_energy"] then (if hasS then "" else " ", "")
  else if m = "caani" then ("", if hasC then "" else " ")
  else ("", "")

/-- the text of an uncertainty -/
def sigma (pad : String × String) (t : List Tok) : List Tok := [.lit "\\sigma(", .lit pad.1] ++ t ++ [.lit pad.2, .lit ")"]

/-! A text that does not interfere with the clean-up: it is not empty, does not begin with a bracket, comma, semicolon or blank, contains
none of the nine two-character openings of the clean-up, and does not end in one. -/

def opening (a b : Char) : Bool := [('\\', ';'), ('(', ')'), ('_', '{'), ('{', '{'), ('{', '}'), (',', '}'), ('{', ','), (';', '}'),
  ('}', ';')].contains (a, b)
def badFirst : List Char := [';', ' ', '(', ')', '}', ',']
def badLast : List Char := ['\\', '(', '_', '{', ',', ';', ' ']

def inertGo : List Char → Bool
  | [] => false
  | [c] => !badLast.contains c
  | a :: b :: r => !opening a b && inertGo (b :: r)

def Inert (w : List Char) : Prop := (∀ c, w.head? = some c → c ∉ badFirst) ∧ inertGo w = true

/-! ## The clean-up does not look into inert texts -/

/-- the conditions on a replacement -/
def tailOk : List Char → Bool
  | [] => true
  | '{' :: '}' :: r => tailOk ('}' :: r)
  | c :: r => badFirst.contains c && tailOk r

def oldOk (A : List Char) (old new : List Char) : Bool :=
  match old with
  | o :: q :: r => opening o q && (badLast.contains o || q == ';') && tailOk (q :: r) && (old ++ new).all (fun c => !A.contains c)
  | _ => false

variable {A : List Char} {φ : Char → List Char}

/-- the placeholders in `A` stand for inert texts, everything else for itself -/
def Subst (A : List Char) (φ : Char → List Char) : Prop := (∀ c ∈ A, Inert (φ c)) ∧ ∀ c, c ∉ A → φ c = [c]

theorem flatMap_lit (h : Subst A φ) {l : List Char} (hl : ∀ c ∈ l, c ∉ A) : l.flatMap φ = l := by
  induction l with
  | nil => rfl
  | cons c cs ih =>
    rw [List.flatMap_cons, h.2 c (hl c List.mem_cons_self), ih (fun c hc => hl c (List.mem_cons_of_mem _ hc))]
    rfl

theorem inert_ne {w : List Char} (h : Inert w) : w ≠ [] := by
  rintro rfl
  simp [Inert, inertGo] at h

theorem tail_prefix (h : Subst A φ) : ∀ (p : List Char), tailOk p = true → (∀ c ∈ p, c ∉ A) → ∀ cs, p <+: cs.flatMap φ → p <+: cs := by
  intro p
  induction p with
  | nil => intro _ _ cs _; exact List.nil_prefix
  | cons x p ih =>
    intro hp hA cs hpre
    cases cs with
    | nil => simp at hpre
    | cons a cs =>
      rw [List.flatMap_cons] at hpre
      by_cases ha : a ∈ A
      · exfalso
        have hin := h.1 a ha
        generalize φ a = w at hpre hin
        cases w with
        | nil => exact inert_ne hin rfl
        | cons y w =>
          rw [List.cons_append, List.cons_prefix_cons] at hpre
          obtain ⟨rfl, hpre⟩ := hpre
          have hx : x ∉ badFirst := hin.1 x rfl
          have hbr : x = '{' ∧ ∃ r, p = '}' :: r := by
            cases p with
            | nil =>
              rw [tailOk] at hp
              · simp [hx] at hp
              · intro r _ hr; simp at hr
            | cons z r =>
              by_cases hz : x = '{' ∧ z = '}'
              · exact ⟨hz.1, r, by rw [hz.2]⟩
              · exfalso
                rw [tailOk] at hp
                · simp [hx] at hp
                · intro r' h1 h2
                  simp only [List.cons.injEq] at h2
                  exact hz ⟨h1, h2.1⟩
          obtain ⟨rfl, r, rfl⟩ := hbr
          cases w with
          | nil => have := hin.2; revert this; decide
          | cons z w =>
            rw [List.cons_append, List.cons_prefix_cons] at hpre
            obtain ⟨rfl, _⟩ := hpre
            have := hin.2
            simp [inertGo, opening] at this
      · rw [h.2 a ha] at hpre
        rw [List.singleton_append, List.cons_prefix_cons] at hpre
        obtain ⟨rfl, hpre⟩ := hpre
        rw [List.cons_prefix_cons]
        refine ⟨rfl, ih ?_ (fun c hc => hA c (List.mem_cons_of_mem _ hc)) cs hpre⟩
        by_cases hz : x = '{' ∧ ∃ r, p = '}' :: r
        · obtain ⟨rfl, r, rfl⟩ := hz
          rw [tailOk] at hp
          exact hp
        · rw [tailOk] at hp
          · exact (by simpa using hp : _ ∧ _).2
          · intro r h1 h2
            exact hz ⟨h1, r, h2⟩

theorem repl_inert {old new : List Char} (ho : oldOk A old new = true) : ∀ (w : List Char), inertGo w = true → ∀ X : List Char,
    X.head? ≠ some ';' → replGo old new 0 (w ++ X) = w ++ replGo old new 0 X := by
  obtain ⟨o, q, r, rfl⟩ : ∃ o q r, old = o :: q :: r := by
    unfold oldOk at ho
    match old, ho with
    | o :: q :: r, _ => exact ⟨o, q, r, rfl⟩
  simp only [oldOk, Bool.and_eq_true] at ho
  obtain ⟨⟨⟨h1, h2⟩, _⟩, _⟩ := ho
  intro w
  induction w with
  | nil => intro h; simp [inertGo] at h
  | cons a w ih =>
    intro h X hX
    cases w with
    | nil =>
      simp only [List.cons_append, List.nil_append]
      rw [replGo_cons]
      intro hpre
      rw [List.cons_prefix_cons] at hpre
      obtain ⟨rfl, hpre⟩ := hpre
      simp only [inertGo, Bool.not_eq_true'] at h
      rw [h] at h2
      simp only [Bool.false_or, beq_iff_eq] at h2
      subst h2
      obtain ⟨t, rfl⟩ := hpre
      simp at hX
    | cons b w =>
      simp only [inertGo, Bool.and_eq_true, Bool.not_eq_true'] at h
      rw [List.cons_append, replGo_cons, ih h.2 X hX]
      · rfl
      · intro hpre
        rw [List.cons_append, List.cons_prefix_cons, List.cons_prefix_cons] at hpre
        obtain ⟨rfl, rfl, _⟩ := hpre
        rw [h.1] at h1
        simp at h1

/-- no placeholder is followed by a semicolon -/
def noSemi (A : List Char) : List Char → Bool
  | [] => true
  | c :: cs => !(A.contains c && cs.head? == some ';') && noSemi A cs

theorem noSemi_append {p l : List Char} (h : noSemi A (p ++ l) = true) : noSemi A l = true := by
  induction p with
  | nil => exact h
  | cons c p ih =>
    simp only [List.cons_append, noSemi, Bool.and_eq_true] at h
    exact ih h.2

theorem repl_flatMap (h : Subst A φ) (hA : ';' ∉ A) {old new : List Char} (ho : oldOk A old new = true) : ∀ (n : Nat) (l : List Char),
    l.length ≤ n → noSemi A l = true → replGo old new 0 (l.flatMap φ) = (replGo old new 0 l).flatMap φ := by
  obtain ⟨o, p, hop⟩ : ∃ o p, old = o :: p := by
    unfold oldOk at ho
    match old, ho with
    | o :: q :: r, _ => exact ⟨o, q :: r, rfl⟩
  have hno : ∀ c ∈ old ++ new, c ∉ A := by
    subst hop
    unfold oldOk at ho
    match p, ho with
    | q :: r, ho =>
      simp only [Bool.and_eq_true, List.all_eq_true] at ho
      intro c hc hcA
      have := ho.2 c hc
      simp [hcA] at this
  have htail : tailOk p = true := by
    subst hop
    unfold oldOk at ho
    match p, ho with
    | q :: r, ho =>
      simp only [Bool.and_eq_true] at ho
      exact ho.1.2
  have hne : old ≠ [] := by rw [hop]; simp
  intro n
  induction n with
  | zero =>
    intro l hl _
    obtain rfl : l = [] := List.length_eq_zero_iff.mp (by omega)
    rfl
  | succ n ih =>
    intro l hl hs
    cases l with
    | nil => rfl
    | cons c cs =>
      have hs' : noSemi A cs = true := noSemi_append (p := [c]) hs
      have hl' : cs.length ≤ n := by simp at hl; omega
      by_cases hc : c ∈ A
      · have hoc : ¬ old <+: c :: cs := by
          rw [hop, List.cons_prefix_cons]
          rintro ⟨rfl, _⟩
          exact hno o (by rw [hop]; simp) hc
        rw [replGo_cons old new c cs hoc, List.flatMap_cons, List.flatMap_cons, ← ih cs hl' hs']
        refine repl_inert ho (φ c) (h.1 c hc).2 _ ?_
        cases cs with
        | nil => simp
        | cons a cs =>
          simp only [noSemi, Bool.and_eq_true, Bool.not_eq_true'] at hs
          rw [List.flatMap_cons]
          by_cases ha : a ∈ A
          · have hin := h.1 a ha
            generalize φ a = w at hin
            cases w with
            | nil => exact absurd rfl (inert_ne hin)
            | cons y w =>
              have := hin.1 y rfl
              intro hy
              simp only [List.cons_append, List.head?_cons, Option.some.injEq] at hy
              subst hy
              exact this (by decide)
          · rw [h.2 a ha]
            intro hy
            simp only [List.cons_append, List.head?_cons, Option.some.injEq] at hy
            subst hy
            have := hs.1
            simp [hc] at this
      · by_cases hpre : old <+: c :: cs
        · obtain ⟨r, hr⟩ := hpre
          rw [← hr, List.flatMap_append, flatMap_lit h (fun c hc => hno c (List.mem_append_left _ hc)), replGo_match _ _ _ hne,
            replGo_match _ _ _ hne, List.flatMap_append, flatMap_lit h (fun c hc => hno c (List.mem_append_right _ hc))]
          rw [ih r ?_ (noSemi_append (p := old) (by rw [hr]; exact hs))]
          have := congrArg List.length hr
          have h2 := List.length_pos_iff.mpr hne
          simp only [List.length_append, List.length_cons] at this hl
          omega
        · have hpre' : ¬ old <+: c :: cs.flatMap φ := by
            rw [hop, List.cons_prefix_cons]
            rintro ⟨rfl, hp⟩
            refine hpre ?_
            rw [hop, List.cons_prefix_cons]
            exact ⟨rfl, tail_prefix h p htail (fun c hc => hno c (by rw [hop]; simp [hc])) cs hp⟩
          rw [List.flatMap_cons, h.2 c hc, List.singleton_append, replGo_cons _ _ _ _ hpre', replGo_cons _ _ _ _ hpre, List.flatMap_cons,
            h.2 c hc, List.singleton_append, ih cs hl' hs']

/-- the conditions hold at every stage of the clean-up -/
def stagesOk (A : List Char) : List (String × String) → List Char → Bool
  | [], _ => true
  | a :: cl, l => oldOk A a.1.toList a.2.toList && noSemi A l && stagesOk A cl (replGo a.1.toList a.2.toList 0 l)

theorem clean_flatMap (h : Subst A φ) (hA : ';' ∉ A) : ∀ (cl : List (String × String)) (l : List Char), stagesOk A cl l = true →
    cl.foldl (fun l a => replGo a.1.toList a.2.toList 0 l) (l.flatMap φ) =
      (cl.foldl (fun l a => replGo a.1.toList a.2.toList 0 l) l).flatMap φ := by
  intro cl
  induction cl with
  | nil => intro l _; rfl
  | cons a cl ih =>
    intro l hs
    simp only [stagesOk, Bool.and_eq_true] at hs
    rw [List.foldl_cons, List.foldl_cons, repl_flatMap h hA hs.1.1 _ l le_rfl hs.1.2, ih _ hs.2]

theorem drop_flatMap {p : Char → Bool} {ψ : Char → List Char} (h1 : ∀ c, p c = true → ψ c = [c])
    (h2 : ∀ c, p c = false → ∃ y w, ψ c = y :: w ∧ p y = false) (l : List Char) :
    (l.flatMap ψ).dropWhile p = (l.dropWhile p).flatMap ψ := by
  induction l with
  | nil => rfl
  | cons c cs ih =>
    rw [List.flatMap_cons]
    cases hc : p c with
    | true =>
      rw [h1 c hc, List.singleton_append, List.dropWhile_cons_of_pos hc, List.dropWhile_cons_of_pos hc, ih]
    | false =>
      obtain ⟨y, w, hw, hy⟩ := h2 c hc
      rw [List.dropWhile_cons_of_neg (by simp [hc]), List.flatMap_cons, hw, List.cons_append, List.dropWhile_cons_of_neg (by simp [hy])]

theorem inert_last {w : List Char} (h : inertGo w = true) : ∃ y u, w.reverse = y :: u ∧ y ∉ badLast := by
  induction w with
  | nil => simp [inertGo] at h
  | cons a w ih =>
    cases w with
    | nil => exact ⟨a, [], rfl, by simpa [inertGo] using h⟩
    | cons b w =>
      simp only [inertGo, Bool.and_eq_true] at h
      obtain ⟨y, u, hu, hy⟩ := ih h.2
      exact ⟨y, u ++ [a], by rw [List.reverse_cons, hu]; rfl, hy⟩

theorem rstrip_flatMap (h : Subst A φ) {x : Char} (hx : x ∈ badLast) (hxA : x ∉ A) (l : List Char) :
    rstripL (· == x) (l.flatMap φ) = (rstripL (· == x) l).flatMap φ := by
  unfold rstripL
  rw [List.reverse_flatMap, drop_flatMap, List.flatMap_reverse]
  · intro c hc
    obtain rfl : c = x := by simpa using hc
    simp [Function.comp, h.2 c hxA]
  · intro c hc
    by_cases hcA : c ∈ A
    · obtain ⟨y, u, hu, hy⟩ := inert_last (h.1 c hcA).2
      refine ⟨y, u, hu, ?_⟩
      have : y ≠ x := fun e => hy (e ▸ hx)
      simpa using this
    · exact ⟨c, [], by simp [Function.comp, h.2 c hcA], hc⟩

theorem lstrip_flatMap (h : Subst A φ) (hxA : ' ' ∉ A) (l : List Char) :
    (l.flatMap φ).dropWhile (· == ' ') = (l.dropWhile (· == ' ')).flatMap φ := by
  refine drop_flatMap ?_ ?_ l
  · intro c hc
    obtain rfl : c = ' ' := by simpa using hc
    exact h.2 _ hxA
  · intro c hc
    by_cases hcA : c ∈ A
    · have hin := h.1 c hcA
      generalize φ c = w at hin
      cases w with
      | nil => exact absurd rfl (inert_ne hin)
      | cons y w =>
        refine ⟨y, w, rfl, ?_⟩
        have := hin.1 y rfl
        have : y ≠ ' ' := by rintro rfl; exact this (by decide)
        simpa using this
    · exact ⟨c, [], h.2 c hcA, hc⟩

theorem cleanL_flatMap (h : Subst A φ) (hA : ';' ∉ A ∧ ' ' ∉ A ∧ '_' ∉ A) {l : List Char} (hs : stagesOk A cleanUps l = true) :
    cleanL (l.flatMap φ) = (cleanL l).flatMap φ := by
  unfold cleanL
  simp only []
  rw [clean_flatMap h hA.1 cleanUps l hs, rstrip_flatMap h (by decide) hA.2.2, lstrip_flatMap h hA.2.1, rstrip_flatMap h (by decide) hA.2.1,
    lstrip_flatMap h hA.2.1, rstrip_flatMap h (by decide) hA.2.1]

/-! ## Filling in the values -/

def holes : List Char := ['Ⓜ', 'Ⓒ', 'Ⓢ']

/-- what a placeholder stands for (an empty value has no placeholder) -/
def orX (v : List Char) : List Char := if v = [] then ['x'] else v
def values (m c s : List Char) (a : Char) : List Char :=
  if a = 'Ⓜ' then orX m else if a = 'Ⓒ' then orX c else if a = 'Ⓢ' then orX s else [a]
def hole (a : Char) (v : List Char) : List Char := if v = [] then [] else [a]

theorem values_hole (m c s : List Char) : (hole 'Ⓜ' m).flatMap (values m c s) = m ∧ (hole 'Ⓒ' c).flatMap (values m c s) = c ∧
    (hole 'Ⓢ' s).flatMap (values m c s) = s := by
  refine ⟨?_, ?_, ?_⟩
  · by_cases h : m = [] <;> simp [hole, h, values, orX]
  · by_cases h : c = [] <;> simp [hole, h, values, orX]
  · by_cases h : s = [] <;> simp [hole, h, values, orX]

theorem values_lit (m c s : List Char) {a : Char} (h : a ∉ holes) : values m c s a = [a] := by
  simp only [holes, List.mem_cons, List.not_mem_nil, or_false, not_or] at h
  simp [values, h]

theorem values_subst {m c s : List Char} (hm : m = [] ∨ Inert m) (hc : c = [] ∨ Inert c) (hs : s = [] ∨ Inert s) :
    Subst holes (values m c s) := by
  have ho : ∀ v : List Char, v = [] ∨ Inert v → Inert (orX v) := by
    intro v hv
    by_cases h : v = []
    · rw [orX, if_pos h]
      refine ⟨?_, by decide⟩
      intro c hc
      simp only [List.head?_cons, Option.some.injEq] at hc
      subst hc
      decide
    · rw [orX, if_neg h]
      exact hv.resolve_left h
  refine ⟨?_, fun a ha => values_lit m c s ha⟩
  intro a ha
  simp only [holes, List.mem_cons, List.not_mem_nil, or_false] at ha
  rcases ha with rfl | rfl | rfl
  · simpa [values] using ho m hm
  · simpa [values] using ho c hc
  · simpa [values] using ho s hs

theorem fill_flatMap {d d' : List (List Char × List Char)} {φ : Char → List Char}
    (hd : ∀ k, d.lookup k = (d'.lookup k).map (·.flatMap φ)) : ∀ (t : List Char) (k : Nat), (∀ c ∈ t, φ c = [c]) →
    fillGo d k t = (fillGo d' k t).flatMap φ := by
  intro t
  induction t with
  | nil => intro k _; cases k <;> rfl
  | cons c cs ih =>
    intro k ht
    have ht' := fun c hc => ht c (List.mem_cons_of_mem _ hc)
    have hc := ht c List.mem_cons_self
    cases k with
    | succ k => exact ih k ht'
    | zero =>
      simp only [fillGo]
      by_cases h : c = '$'
      · rw [if_pos h, if_pos h, hd]
        cases d'.lookup (cs.takeWhile isId) with
        | none => simp only [Option.map_none]; rw [List.flatMap_cons, hc, ih 0 ht']; rfl
        | some v => simp only [Option.map_some]; rw [List.flatMap_append, ih _ ht']
      · rw [if_neg h, if_neg h, List.flatMap_cons, hc, ih 0 ht']
        rfl

theorem render_flatMap {m c s m' c' s' : List Char} {φ : Char → List Char} (hm : m'.flatMap φ = m) (hc : c'.flatMap φ = c)
    (hs : s'.flatMap φ = s) : ∀ (t : List Tok), (∀ x ∈ t, ∀ u, x = .lit u → ∀ a ∈ u.toList, φ a = [a]) →
    (render m' c' s' t).flatMap φ = render m c s t := by
  intro t
  induction t with
  | nil => intro _; rfl
  | cons x t ih =>
    intro h
    have ht := ih (fun y hy => h y (List.mem_cons_of_mem _ hy))
    cases x with
    | lit u =>
      simp only [render, List.flatMap_append, ht]
      congr 1
      have hu := h _ List.mem_cons_self u rfl
      generalize u.toList = l at hu
      induction l with
      | nil => rfl
      | cons a l ihl =>
        rw [List.flatMap_cons, hu a List.mem_cons_self, ihl (fun a ha => hu a (List.mem_cons_of_mem _ ha))]
        rfl
    | M => simp only [render, List.flatMap_append, ht, hm]
    | C => simp only [render, List.flatMap_append, ht, hc]
    | S => simp only [render, List.flatMap_append, ht, hs]

/-- what the clean-up makes of a template with placeholders, for one measurement -/
def rowOk (t : String) (pad : Bool → Bool → String × String) (r : Shown) : Bool :=
  [false, true].all fun e => [false, true].all fun hc => [false, true].all fun hs =>
    let c := if hc then ['Ⓒ'] else []
    let s := if hs then ['Ⓢ'] else []
    let l := rawTexL e t.toList ['Ⓜ'] c s
    let x := r.pick hc hs
    let y := if e then sigma (pad hc hs) x else x
    stagesOk holes cleanUps l && decide (cleanL l = render ['Ⓜ'] c s y) &&
      y.all (fun k => match k with | .lit u => u.toList.all (fun a => !holes.contains a) | _ => true)

def checkRow (r : String × Shown) : Bool := match templates.lookup r.1 with
  | none => false
  | some t => t.toList.all (fun a => !holes.contains a) && rowOk t (leftover r.1) r.2

theorem rows_checked : shown.all checkRow = true := by decide +kernel

theorem rows_ok : ∀ r ∈ shown, ∃ t, templates.lookup r.1 = some t ∧ (∀ a ∈ t.toList, a ∉ holes) ∧ rowOk t (leftover r.1) r.2 = true := by
  intro r hr
  have := List.all_eq_true.mp rows_checked r hr
  unfold checkRow at this
  cases ht : templates.lookup r.1 with
  | none => rw [ht] at this; simp at this
  | some t =>
    rw [ht] at this
    simp only [Bool.and_eq_true, List.all_eq_true] at this
    refine ⟨t, rfl, fun a ha hh => ?_, this.2⟩
    have h2 := this.1 a ha
    simp [hh] at h2

theorem default_ok : (∀ a ∈ defaultTemplate.toList, a ∉ holes) ∧ rowOk defaultTemplate (fun _ _ => ("", "")) shownDefault = true := by
  refine ⟨?_, ?_⟩ <;> decide +kernel

theorem text_of_row {t : String} {pad : Bool → Bool → String × String} {r : Shown} (ht : ∀ a ∈ t.toList, a ∉ holes)
    (hr : rowOk t pad r = true) {m c s : List Char} (hm : Inert m) (hc : c = [] ∨ Inert c) (hs : s = [] ∨ Inert s) (e : Bool) :
    cleanL (rawTexL e t.toList m c s) = render m c s (let x := r.pick (!c.isEmpty) (!s.isEmpty);
      if e then sigma (pad (!c.isEmpty) (!s.isEmpty)) x else x) := by
  have hsub := values_subst (Or.inr hm) hc hs
  obtain ⟨v1, v2, v3⟩ := values_hole m c s
  have hm0 : hole 'Ⓜ' m = ['Ⓜ'] := by rw [hole, if_neg (inert_ne hm)]
  have hc0 : hole 'Ⓒ' c = if (!c.isEmpty) = true then ['Ⓒ'] else [] := by cases c <;> rfl
  have hs0 : hole 'Ⓢ' s = if (!s.isEmpty) = true then ['Ⓢ'] else [] := by cases s <;> rfl
  rw [hm0] at v1
  rw [hc0] at v2
  rw [hs0] at v3
  have hall : ∀ (e b b' : Bool), stagesOk holes cleanUps (rawTexL e t.toList ['Ⓜ'] (if b then ['Ⓒ'] else []) (if b' then ['Ⓢ'] else [])) = true ∧
      cleanL (rawTexL e t.toList ['Ⓜ'] (if b then ['Ⓒ'] else []) (if b' then ['Ⓢ'] else [])) =
        render ['Ⓜ'] (if b then ['Ⓒ'] else []) (if b' then ['Ⓢ'] else []) (if e then sigma (pad b b') (r.pick b b') else r.pick b b') ∧
      ∀ k ∈ (if e then sigma (pad b b') (r.pick b b') else r.pick b b'), ∀ u, k = Tok.lit u → ∀ a ∈ u.toList, a ∉ holes := by
    intro e b b'
    unfold rowOk at hr
    have h3 := List.all_eq_true.mp (List.all_eq_true.mp (List.all_eq_true.mp hr e (by cases e <;> simp)) b (by cases b <;> simp)) b'
      (by cases b' <;> simp)
    simp only [Bool.and_eq_true, decide_eq_true_eq] at h3
    refine ⟨h3.1.1, h3.1.2, ?_⟩
    intro k hk u hu a ha hh
    have := List.all_eq_true.mp h3.2 k hk
    subst hu
    have h4 := List.all_eq_true.mp this a ha
    simp [hh] at h4
  obtain ⟨g1, g2, g3⟩ := hall e (!c.isEmpty) (!s.isEmpty)
  have hraw : rawTexL e t.toList m c s =
      (rawTexL e t.toList ['Ⓜ'] (if (!c.isEmpty) = true then ['Ⓒ'] else []) (if (!s.isEmpty) = true then ['Ⓢ'] else [])).flatMap
        (values m c s) := by
    have hf : fillGo [(['M'], m), (['C'], c), (['S'], s)] 0 t.toList =
        (fillGo [(['M'], ['Ⓜ']), (['C'], if (!c.isEmpty) = true then ['Ⓒ'] else []), (['S'], if (!s.isEmpty) = true then ['Ⓢ'] else [])]
          0 t.toList).flatMap (values m c s) := by
      refine fill_flatMap ?_ _ 0 (fun a ha => values_lit m c s (ht a ha))
      intro k
      simp only [List.lookup_cons]
      cases k == ['M'] <;> cases k == ['C'] <;> cases k == ['S'] <;> simp only [Option.map_some, Option.map_none, List.lookup_nil, v1, v2, v3]
    unfold rawTexL
    simp only []
    rw [hf]
    cases e with
    | false => rfl
    | true =>
      simp only [if_true]
      rw [List.flatMap_append, List.flatMap_append, flatMap_lit hsub (l := "\\sigma(".toList) (by decide +kernel),
        flatMap_lit hsub (l := [')']) (by decide +kernel)]
  rw [hraw, cleanL_flatMap hsub (by decide) g1, g2]
  exact render_flatMap v1 v2 v3 _ (fun x hx u hu a ha => values_lit m c s (g3 x hx u hu a ha))

end Labels
end SW
