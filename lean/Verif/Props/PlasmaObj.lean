import Verif.PlasmaObj
import Verif.Props.PlasmaData

/-!
# Attributes and copies of a plasma (C202), histories of setters (C203)
-/

namespace SW
namespace PObj

/-! ## C202: attributes -/

/-- the usual lookup in class and instance variables succeeds -/
inductive Found (vars : List String) : String → Prop
  | method {a : String} (h : a ∈ methods) (hp : properties.lookup a = none) : Found vars a
  | var {a : String} (h : a ∈ vars) (hm : a ∉ methods) (hp : properties.lookup a = none) : Found vars a
  | property {a b : String} (h : properties.lookup a = some b) (hb : Found vars b) : Found vars a

theorem ions_prop : properties.lookup "ions" = some "_ions" := by decide +kernel
theorem uions_prop : properties.lookup "_ions" = none := by decide +kernel
theorem uions_method : "_ions" ∉ methods := by decide +kernel

theorem loop_step (o : Inst) (h : "_ions" ∉ o.vars) : ∀ n, get o n "ions" = none ∧ get o n "_ions" = none := by
  intro n
  induction n with
  | zero => exact ⟨rfl, rfl⟩
  | succ n ih =>
    constructor
    · rw [get]
      simp only [ions_prop, ih.2]
    · rw [get]
      simp only [uions_prop, uions_method, h, if_false, ih.1]

/-- **C202, violated** On a plasma that does not have its ions yet (one being copied or unpickled), looking up anything that is not found the
usual way never comes to an end: the calls nest without bound. -/
theorem C202_endless (o : Inst) (h : "_ions" ∉ o.vars) (a : String) (ha : ¬ Found o.vars a) : ∀ n, get o n a = none := by
  intro n
  induction n generalizing a with
  | zero => rfl
  | succ n ih =>
    rw [get]
    cases hp : properties.lookup a with
    | some b =>
      have hb : ¬ Found o.vars b := fun hf => ha (.property hp hf)
      simp only [ih b hb]
    | none =>
      have hm : a ∉ methods := fun hm => ha (.method hm hp)
      have hv : a ∉ o.vars := fun hv => ha (.var hv hm hp)
      simp only [hm, hv, if_false, (loop_step o h n).1]

/-- **C202** What is found the usual way is never an ion and is found however many calls are allowed, once there are enough. -/
theorem C202_found (o : Inst) (a : String) (ha : Found o.vars a) :
    ∃ N v, (∀ n, N ≤ n → get o n a = some (.ok v)) ∧ ∀ s, v ≠ .ion s := by
  induction ha with
  | @method a h hp =>
    refine ⟨1, .bound a, fun n hn => ?_, fun s h => by cases h⟩
    obtain ⟨m, rfl⟩ : ∃ m, n = m + 1 := ⟨n - 1, by omega⟩
    rw [get]; simp only [hp, h, if_true]
  | @var a h hm hp =>
    refine ⟨1, .inst a, fun n hn => ?_, fun s h => by cases h⟩
    obtain ⟨m, rfl⟩ : ∃ m, n = m + 1 := ⟨n - 1, by omega⟩
    rw [get]; simp only [hp, hm, h, if_true, if_false]
  | @property a b h hb ih =>
    obtain ⟨N, v, hv, hs⟩ := ih
    refine ⟨N + 1, v, fun n hn => ?_, hs⟩
    obtain ⟨m, rfl⟩ : ∃ m, n = m + 1 := ⟨n - 1, by omega⟩
    rw [get]; simp only [h, hv m (by omega)]

theorem not_found_setstate : ¬ Found [] "__setstate__" := by
  intro h
  have hn : properties.lookup "__setstate__" = none := by decide +kernel
  cases h with
  | method h _ => exact absurd h (by decide +kernel)
  | var h _ _ => simp at h
  | property h _ => rw [hn] at h; simp at h

/-- **C202, violated** A plasma can be neither copied (`copy.copy`, `copy.deepcopy`) nor unpickled: rebuilding it never comes to an end (Python
stops it with a `RecursionError`, which `hasattr` does not catch). -/
theorem C202_copy (o : Inst) : ∀ n, rebuild o n = none := by
  intro n
  unfold rebuild hasAttr
  rw [C202_endless ⟨[], []⟩ (by simp) _ not_found_setstate n]

theorem full_ions : "_ions" ∈ fullVars := by decide +kernel

/-- does the chain of properties from `a` end in a variable or method? -/
def chain (vars : List String) : Nat → String → Bool
  | 0, _ => false
  | n + 1, a => match properties.lookup a with
    | some b => chain vars n b
    | none => decide (a ∈ methods) || decide (a ∈ vars)

theorem chain_found (vars : List String) : ∀ n a, chain vars n a = true → Found vars a := by
  intro n
  induction n with
  | zero => intro a h; simp [chain] at h
  | succ n ih =>
    intro a h
    rw [chain] at h
    cases hp : properties.lookup a with
    | some b => rw [hp] at h; exact .property hp (ih b h)
    | none =>
      rw [hp] at h
      simp only [Bool.or_eq_true, decide_eq_true_eq] at h
      by_cases hm : a ∈ methods
      · exact .method hm hp
      · rcases h with h | h
        · exact absurd h hm
        · exact .var h hm hp

theorem props_found : ∀ p ∈ properties, chain fullVars 4 p.1 = true := by decide +kernel

theorem lookup_some_mem {a b : String} : ∀ {t : List (String × String)}, t.lookup a = some b → (a, b) ∈ t := by
  intro t
  induction t with
  | nil => intro h; simp at h
  | cons p t ih =>
    intro h
    rw [List.lookup_cons] at h
    by_cases e : a == p.1
    · rw [e] at h
      simp only [Option.some.injEq] at h
      rw [beq_iff_eq] at e
      exact List.mem_cons.mpr (.inl (Prod.ext e h.symm))
    · rw [Bool.not_eq_true] at e
      rw [e] at h
      exact List.mem_cons_of_mem _ (ih h)

/-- **C202** On a constructed plasma with the given ions, every attribute access comes to an end: names of properties, methods and instance
variables give these, any other name gives the ion of that species, and `AttributeError` if there is none. -/
theorem C202_access (ions : List String) (a : String) :
    (Found fullVars a ↔ (a ∈ properties.map Prod.fst ∨ a ∈ methods ∨ a ∈ fullVars)) ∧
    (Found fullVars a → ∃ N v, (∀ n, N ≤ n → get ⟨fullVars, ions⟩ n a = some (.ok v)) ∧ ∀ s, v ≠ .ion s) ∧
    (¬ Found fullVars a → a ∈ ions → ∀ n, 3 ≤ n → get ⟨fullVars, ions⟩ n a = some (.ok (.ion a))) ∧
    (¬ Found fullVars a → a ∉ ions → ∀ n, 3 ≤ n → get ⟨fullVars, ions⟩ n a = some (.error .attributeError)) := by
  have hpk : ∀ b, properties.lookup a = some b → a ∈ properties.map Prod.fst := by
    intro b hb
    exact List.mem_map.mpr ⟨_, lookup_some_mem hb, rfl⟩
  have hiff : Found fullVars a ↔ (a ∈ properties.map Prod.fst ∨ a ∈ methods ∨ a ∈ fullVars) := by
    constructor
    · intro h
      cases h with
      | method h _ => exact .inr (.inl h)
      | var h _ _ => exact .inr (.inr h)
      | property h _ => exact .inl (hpk _ h)
    · intro h
      cases hp : properties.lookup a with
      | some b => exact chain_found _ 4 _ (props_found _ (lookup_some_mem hp))
      | none =>
        rcases h with h | h | h
        · obtain ⟨p, hp1, rfl⟩ := List.mem_map.mp h
          exact chain_found _ 4 _ (props_found _ hp1)
        · exact .method h hp
        · by_cases hm : a ∈ methods
          · exact .method hm hp
          · exact .var h hm hp
  have hions : ∀ n, 2 ≤ n → get ⟨fullVars, ions⟩ n "ions" = some (.ok (.inst "_ions")) := by
    intro n hn
    obtain ⟨m, rfl⟩ : ∃ m, n = m + 2 := ⟨n - 2, by omega⟩
    have h1 : get ⟨fullVars, ions⟩ (m + 1) "_ions" = some (.ok (.inst "_ions")) := by
      rw [get]; simp only [uions_prop, uions_method, full_ions, if_true, if_false]
    rw [get]; simp only [ions_prop, h1]
  have hmiss : ¬ Found fullVars a → ∀ n, 3 ≤ n → get ⟨fullVars, ions⟩ n a =
      if a ∈ ions then some (.ok (.ion a)) else some (.error .attributeError) := by
    intro hf n hn
    obtain ⟨m, rfl⟩ : ∃ m, n = m + 1 := ⟨n - 1, by omega⟩
    rw [hiff, not_or, not_or] at hf
    have hp : properties.lookup a = none := by
      cases hp : properties.lookup a with
      | none => rfl
      | some b => exact absurd (hpk b hp) hf.1
    rw [get]; simp only [hp, hf.2.1, hf.2.2, if_false, hions m (by omega)]
  refine ⟨hiff, C202_found ⟨fullVars, ions⟩ a, ?_, ?_⟩
  · intro hf ha n hn
    rw [hmiss hf n hn, if_pos ha]
  · intro hf ha n hn
    rw [hmiss hf n hn, if_neg ha]

/-- **C202** On a plasma that has its ions but lacks another variable, reading the property of that variable is like reading an unknown
name: the ion of the property's name if there is one, else `AttributeError`; reading ends. -/
theorem C202_unset (vars ions : List String) (hi : "_ions" ∈ vars) (a b : String) (hp : properties.lookup a = some b)
    (hb : properties.lookup b = none) (hm : b ∉ methods) (hv : b ∉ vars) (hbi : b ∉ ions) :
    ∀ n, 4 ≤ n → get ⟨vars, ions⟩ n a = if a ∈ ions then some (.ok (.ion a)) else some (.error .attributeError) := by
  have hions : ∀ n, 2 ≤ n → get ⟨vars, ions⟩ n "ions" = some (.ok (.inst "_ions")) := by
    intro n hn
    obtain ⟨m, rfl⟩ : ∃ m, n = m + 2 := ⟨n - 2, by omega⟩
    have h1 : get ⟨vars, ions⟩ (m + 1) "_ions" = some (.ok (.inst "_ions")) := by
      rw [get]; simp only [uions_prop, uions_method, hi, if_true, if_false]
    rw [get]; simp only [ions_prop, h1]
  intro n hn
  obtain ⟨m, rfl⟩ : ∃ m, n = m + 2 := ⟨n - 2, by omega⟩
  have h1 : get ⟨vars, ions⟩ (m + 1) b = some (.error .attributeError) := by
    rw [get]; simp only [hb, hm, hv, hbi, if_false, hions m (by omega)]
  rw [get]; simp only [hp, h1, hions (m + 1) (by omega)]

example : ∀ n, 4 ≤ n → get ⟨["_ions"], ["spacecraft", "p"]⟩ n "spacecraft" = some (.ok (.ion "spacecraft")) := by
  intro n hn
  rw [C202_unset ["_ions"] ["spacecraft", "p"] (by decide +kernel) "spacecraft" "_spacecraft" (by decide +kernel) (by decide +kernel)
    (by decide +kernel) (by decide +kernel) (by decide +kernel) n hn]
  rfl

/-- **C202** None of the species with known mass and charge is hidden; violated for other names: an ion called like a method or property
(sulphur `S`, `n`, `b`, …) is never returned. -/
theorem C202_shadow :
    (∀ s ∈ ["e", "p", "p1", "p2", "pm", "p_bimax", "a", "a1", "a2", "a_bimax"], ¬ Found fullVars s) ∧
    (∀ s ∈ ["S", "b", "n", "v", "w", "ca", "cs", "sc", "aux"], ∀ ions n, get ⟨fullVars, ions⟩ n s ≠ some (.ok (.ion s))) := by
  constructor
  · intro s hs hf
    have h1 := ((C202_access [] s).1).mp hf
    have h2 : ∀ s ∈ ["e", "p", "p1", "p2", "pm", "p_bimax", "a", "a1", "a2", "a_bimax"],
        ¬ (s ∈ properties.map Prod.fst ∨ s ∈ methods ∨ s ∈ fullVars) := by decide +kernel
    exact h2 s hs h1
  · intro s hs ions n h
    have h2 : ∀ s ∈ ["S", "b", "n", "v", "w", "ca", "cs", "sc", "aux"], (s ∈ properties.map Prod.fst ∨ s ∈ methods ∨ s ∈ fullVars) := by
      decide +kernel
    have hf := ((C202_access ions s).1).mpr (h2 s hs)
    have mono : ∀ (o : Inst) n a r, get o n a = some r → get o (n + 1) a = some r := by
      intro o n
      induction n with
      | zero => intro a r h; simp [get] at h
      | succ n ih =>
        intro a r h
        rw [get] at h
        rw [get]
        have hfb : ∀ r', (match get o n "ions" with
            | none => none
            | some (.error e) => some (.error e)
            | some (.ok _) => if a ∈ o.ions then some (.ok (.ion a)) else some (.error .attributeError) : Option (Except PyErr Val)) = some r' →
            (match get o (n + 1) "ions" with
            | none => none
            | some (.error e) => some (.error e)
            | some (.ok _) => if a ∈ o.ions then some (.ok (.ion a)) else some (.error .attributeError) : Option (Except PyErr Val)) = some r' := by
          intro r' h'
          cases hq : get o n "ions" with
          | none => rw [hq] at h'; simp at h'
          | some x => rw [hq] at h'; rw [ih _ _ hq]; exact h'
        cases hp : properties.lookup a with
        | none =>
          simp only [hp] at h ⊢
          by_cases hm : a ∈ methods
          · simpa only [hm, if_true] using h
          · by_cases hv : a ∈ o.vars
            · simpa only [hm, hv, if_true, if_false] using h
            · simp only [hm, hv, if_false] at h ⊢
              exact hfb _ h
        | some b =>
          simp only [hp] at h ⊢
          cases hq : get o n b with
          | none => rw [hq] at h; simp at h
          | some x =>
            rw [hq] at h
            rw [ih _ _ hq]
            cases x with
            | ok v => exact h
            | error e =>
              cases e <;> first | exact h | exact hfb _ h
    have mono' : ∀ (o : Inst) n a r k, get o n a = some r → get o (n + k) a = some r := by
      intro o n a r k h
      induction k with
      | zero => exact h
      | succ k ih => exact mono o (n + k) a r ih
    obtain ⟨N, v, hv, hne⟩ := C202_found ⟨fullVars, ions⟩ s hf
    have := mono' _ _ _ _ N h
    rw [hv (n + N) (by omega)] at this
    exact hne s (Except.ok.inj (Option.some.inj this))

example : get ⟨fullVars, ["a", "p1"]⟩ 5 "p1" = some (.ok (.ion "p1")) ∧ get ⟨fullVars, ["a", "p1"]⟩ 5 "p2" = some (.error .attributeError) ∧
    get ⟨fullVars, ["a", "p1"]⟩ 5 "sc" = some (.ok (.inst "_spacecraft")) ∧ get ⟨[], []⟩ 50 "__setstate__" = none := by decide +kernel

/-! ## C203: histories -/

open _root_.SW.Frame

theorem setData'_ok (st : PState) (new : Tab) (d : Frame ℤ) (hi : new.idx ≠ []) (h : setData st.species new.fr = .ok d) :
    setData' st new = (.ok (), { st with data := ⟨new.idx, d⟩, bfield := ⟨new.idx, d⟩ }) := by
  unfold setData at h
  unfold setData'
  by_cases h0 : new.fr.isEmpty = true
  · rw [if_pos h0] at h; simp at h
  rw [if_neg h0] at h
  have h0' : ¬ (new.idx = [] ∨ new.fr = []) := by
    rintro (h' | h')
    · exact hi h'
    · exact h0 (by rw [h']; rfl)
  rw [if_neg h0']
  split at h
  · simp at h
  rename_i h1
  rw [if_neg h1]
  simp only at h ⊢
  split at h
  · simp at h
  rename_i h2
  rw [if_neg h2]
  split at h
  · simp at h
  rename_i h3
  rw [if_neg h3]
  split at h
  · simp at h
  rename_i h4
  rw [if_neg h4]
  split at h
  · simp at h
  rename_i h5
  rw [if_neg h5, ← Except.ok.inj h]

theorem refill_ok (st : PState) (sp : List String) (new : Tab) (p : Plasma ℤ) (hi : new.idx ≠ []) (h : mkPlasma new.fr sp = .ok p) :
    refill st sp new = (.ok (), ⟨p.species, ⟨new.idx, p.data⟩, ⟨new.idx, p.data⟩, p.species, ⟨new.idx, p.data⟩, st.sc, st.aux⟩) := by
  unfold mkPlasma at h
  unfold refill
  cases h0 : cleanSpecies sp with
  | error e => rw [h0] at h; simp at h
  | ok s0 =>
    rw [h0] at h
    simp only at h ⊢
    cases h1 : setData s0 new.fr with
    | error e => rw [h1] at h; simp at h
    | ok d =>
      rw [h1] at h
      simp only at h
      rw [setData'_ok { st with species := s0 } new d hi h1]
      simp only
      cases h2 : setIonsSpecies s0 with
      | error e => rw [h2] at h; simp at h
      | ok s1 =>
        rw [h2] at h
        simp only at h ⊢
        cases h3 : ionChecks d s1 with
        | error e => rw [h3] at h; simp at h
        | ok _ =>
          rw [h3] at h
          simp only at h ⊢
          rw [← Except.ok.inj h]

/-- the names are well formed -/
def GoodNames (sp : List String) : Prop := sp ≠ [] ∧ (∀ s ∈ sp, '+' ∉ s.toList) ∧ ∀ s ∈ sp, ',' ∉ s.toList

/-- ions and field belong to the data, what is attached has its time index -/
structure InSync (st : PState) : Prop where
  ions : st.ions = st.species
  ionData : st.ionData = st.data
  bfield : st.bfield = st.data
  sc : ∀ i, st.sc = some i → i = st.data.idx
  aux : ∀ a, st.aux = some a → a.1 = st.data.idx

/-- the data is that of a constructed plasma -/
structure Built (st : PState) : Prop where
  names : GoodNames st.species
  rows : st.data.idx ≠ []
  made : ∃ fr, mkPlasma fr st.species = .ok ⟨st.species, st.data.fr⟩

theorem GoodNames.has {sp : List String} (h : GoodNames sp) :
    (∀ s ∈ sp, hasChar '+' s = false) ∧ ∀ s ∈ sp, hasChar ',' s = false :=
  ⟨fun s hs => by simpa [hasChar] using h.2.1 s hs, fun s hs => by simpa [hasChar] using h.2.2 s hs⟩

theorem GoodNames.sorted {sp : List String} (h : GoodNames sp) : GoodNames (pySorted sp) :=
  ⟨fun e => h.1 (List.perm_nil.mp ((pySorted_perm sp).symm.trans (by rw [e]))), fun s hs => h.2.1 s (mem_pySorted.mp hs),
    fun s hs => h.2.2 s (mem_pySorted.mp hs)⟩

/-- what `mkPlasma` makes depends only on the sorted names -/
theorem mkPlasma_sorted {fr : Frame ℤ} {sp : List String} (h : GoodNames sp) (p : Plasma ℤ) (hm : mkPlasma fr sp = .ok p) :
    mkPlasma fr p.species = .ok ⟨p.species, p.data⟩ ∧ GoodNames p.species := by
  obtain ⟨hd, rfl⟩ := (mkPlasma_ok_iff fr sp h.1 h.has.1 h.has.2 p).mp hm
  refine ⟨?_, h.sorted⟩
  rw [mkPlasma_ok_iff fr _ h.sorted.1 h.sorted.has.1 h.sorted.has.2]
  refine ⟨⟨fun s hs => hd.1 s (mem_pySorted.mp hs), hd.2⟩, ?_⟩
  simp only [pySorted_idem]

theorem construct_built (new : Tab) (sp : List String) (h : GoodNames sp) (st : PState) (hc : construct new sp = .ok st) :
    Built st ∧ InSync st := by
  unfold construct at hc
  by_cases hi : new.idx = []
  · rw [if_pos hi] at hc; simp at hc
  · rw [if_neg hi] at hc
    cases hm : mkPlasma new.fr sp with
    | error e => rw [hm] at hc; simp at hc
    | ok p =>
      rw [hm] at hc
      simp only at hc
      rw [← Except.ok.inj hc]
      obtain ⟨h1, h2⟩ := mkPlasma_sorted h p hm
      exact ⟨⟨h2, hi, _, h1⟩, ⟨rfl, rfl, rfl, fun i hi => by simp at hi, fun a ha => by simp at ha⟩⟩

theorem electronCols_cols (K : Const) (st : PState) (tkw : String) : (electronCols K st tkw).cols =
    [⟨"n", "", "e"⟩, ⟨"v", "x", "e"⟩, ⟨"v", "y", "e"⟩, ⟨"v", "z", "e"⟩, ⟨"w", "par", "e"⟩, ⟨"w", "per", "e"⟩] := rfl

theorem cols_app (f g : Frame ℤ) : Frame.cols (f ++ g) = f.cols ++ g.cols := by simp [Frame.cols]

/-- the row of a plasma as a function of its data alone -/
def rowOf (f : Frame ℤ) (i : ℤ) : Obs := obsAt ⟨[], f⟩ i

theorem obs_sync (st : PState) (h : InSync st) (i : ℤ) : st.obs i = rowOf st.data.fr i := by
  unfold PState.obs rowOf obsAt
  rw [h.ionData, h.bfield]

/-- **C203** Estimating electrons in place: either the call is refused and nothing changes, or afterwards the species are the old ones and the
electrons, sorted, ions and field belong to the data again, everything known about the old species and the field is as before, and the electrons
are the estimate. -/
theorem C203_electrons (K : Const) (st : PState) (hb : Built st) (hs : InSync st) :
    (∀ e, protonOf st.species = .error e → electronsInplace K st = (.error e, st)) ∧
    (∀ tkw, protonOf st.species = .ok tkw → ∃ st', electronsInplace K st = (.ok (), st') ∧ Built st' ∧ InSync st' ∧
      st'.species = pySorted (st.species ++ ["e"]) ∧ st'.data.idx = st.data.idx ∧ st'.sc = st.sc ∧ st'.aux = st.aux ∧
      ∀ i, ((st'.obs i).b = (st.obs i).b ∧ (∀ s ∈ st.species, (st'.obs i).n s = (st.obs i).n s ∧ (st'.obs i).v s = (st.obs i).v s ∧
          ∀ c ∈ ["par", "per", "scalar"], (st'.obs i).w s c = (st.obs i).w s c) ∧
        (st'.obs i).n "e" = (electronsOf K (st.obs i) st.species tkw).n ∧ (st'.obs i).v "e" = (electronsOf K (st.obs i) st.species tkw).v ∧
        (st'.obs i).w "e" "par" = (electronsOf K (st.obs i) st.species tkw).w ∧
        (st'.obs i).w "e" "per" = (electronsOf K (st.obs i) st.species tkw).w)) := by
  constructor
  · intro e he
    unfold electronsInplace
    rw [he]
  · intro tkw ht
    obtain ⟨fr, hfr⟩ := hb.made
    obtain ⟨hd, hform⟩ := (mkPlasma_ok_iff fr st.species hb.names.1 hb.names.has.1 hb.names.has.2 _).mp hfr
    simp only [Plasma.mk.injEq] at hform
    obtain ⟨hsort, hdata⟩ := hform
    rw [← hsort] at hdata
    have he : "e" ∉ st.species := by
      intro he
      unfold protonOf at ht
      rw [if_pos (by simpa using he)] at ht
      simp at ht
    obtain ⟨E, hE⟩ : ∃ E, E = electronCols K st tkw := ⟨_, rfl⟩
    have hEc : E.cols = [⟨"n", "", "e"⟩, ⟨"v", "x", "e"⟩, ⟨"v", "y", "e"⟩, ⟨"v", "z", "e"⟩, ⟨"w", "par", "e"⟩, ⟨"w", "per", "e"⟩] := by
      rw [hE]; exact electronCols_cols K st tkw
    -- no electron label in the data
    have hnoe : ∀ c : Col, c.s = "e" → Frame.get st.data.fr c = none := by
      intro c hc
      rw [hdata, get_buildData]
      have h1 : keepCol st.species c = false := by
        unfold keepCol
        have : (st.species ++ [""]).contains c.s = false := by
          rw [hc, ← Bool.not_eq_true, List.contains_iff_mem, List.mem_append, List.mem_singleton]
          rintro (h | h)
          · exact he h
          · revert h; decide
        rw [this, Bool.and_false]
      rw [h1, if_neg (by simp), if_neg]
      rintro ⟨-, -, h | h, -⟩
      · rw [hc] at h; exact he h
      · rw [hc] at h; revert h; decide
    have hany : (Frame.cols st.data.fr).any (fun c => E.cols.contains c) = false := by
      rw [List.any_eq_false]
      intro c hc hcc
      rw [List.contains_iff_mem, hEc] at hcc
      have hce : c.s = "e" := by
        simp only [List.mem_cons, List.not_mem_nil, or_false] at hcc
        rcases hcc with rfl | rfl | rfl | rfl | rfl | rfl <;> rfl
      have := get_isSome.mpr hc
      rw [hnoe c hce] at this
      simp at this
    obtain ⟨F, hF⟩ : ∃ F : Frame ℤ, F = st.data.fr ++ E := ⟨_, rfl⟩
    have hgood : GoodNames (pySorted (st.species ++ ["e"])) := by
      apply GoodNames.sorted
      refine ⟨by simp, ?_, ?_⟩
      · intro s hs
        rcases List.mem_append.mp hs with h | h
        · exact hb.names.2.1 s h
        · rw [List.mem_singleton] at h; subst h; decide
      · intro s hs
        rcases List.mem_append.mp hs with h | h
        · exact hb.names.2.2 s h
        · rw [List.mem_singleton] at h; subst h; decide
    -- labels of the old data
    have hold : ∀ c : Col, c ∈ Frame.cols fr → keepCol st.species c = true → c ∈ Frame.cols st.data.fr := by
      intro c hc hk
      rw [← get_isSome, hdata, get_buildData, if_pos hk, get_isSome]
      exact hc
    have hkb : ∀ k ∈ ["x", "y", "z"], keepCol st.species ⟨"b", k, ""⟩ = true := by
      intro k hk
      simp only [List.mem_cons, List.not_mem_nil, or_false] at hk
      rcases hk with rfl | rfl | rfl <;> simp [keepCol, plasmaM, plasmaC]
    have hks : ∀ s ∈ st.species, ∀ c ∈ ionRequired s, keepCol st.species c = true := by
      intro s hs c hc
      simp only [ionRequired, List.mem_cons, List.not_mem_nil, or_false] at hc
      rcases hc with rfl | rfl | rfl | rfl | rfl | rfl <;> simp [keepCol, plasmaM, plasmaC, hs]
    have hok : DataOk (pySorted (st.species ++ ["e"])) F := by
      refine ⟨?_, ?_⟩
      · intro s hs c hc
        rw [hF, cols_app, List.mem_append]
        rcases List.mem_append.mp (mem_pySorted.mp hs) with h | h
        · exact .inl (hold c (hd.1 s h c hc) (hks s h c hc))
        · rw [List.mem_singleton] at h; subst h
          right
          rw [hEc]
          exact hc
      · intro k hk
        rw [hF, cols_app, List.mem_append]
        exact .inl (hold _ (hd.2 k hk) (hkb k hk))
    have hmk : mkPlasma F (pySorted (st.species ++ ["e"])) = .ok ⟨pySorted (st.species ++ ["e"]), buildData (pySorted (st.species ++ ["e"])) F⟩ := by
      rw [mkPlasma_ok_iff F _ hgood.1 hgood.has.1 hgood.has.2]
      exact ⟨hok, by rw [pySorted_idem]⟩
    have hrun : electronsInplace K st = (.ok (), ⟨pySorted (st.species ++ ["e"]),
        ⟨st.data.idx, buildData (pySorted (st.species ++ ["e"])) F⟩, ⟨st.data.idx, buildData (pySorted (st.species ++ ["e"])) F⟩,
        pySorted (st.species ++ ["e"]), ⟨st.data.idx, buildData (pySorted (st.species ++ ["e"])) F⟩, st.sc, st.aux⟩) := by
      unfold electronsInplace
      rw [ht]
      simp only
      rw [← hE, hany, if_neg (by simp), ← hF]
      exact refill_ok st _ ⟨st.data.idx, F⟩ _ hb.rows hmk
    obtain ⟨sp', hsp'⟩ : ∃ sp', sp' = pySorted (st.species ++ ["e"]) := ⟨_, rfl⟩
    obtain ⟨D, hD⟩ : ∃ D, D = buildData (pySorted (st.species ++ ["e"])) F := ⟨_, rfl⟩
    rw [← hD, ← hsp'] at hrun hmk
    refine ⟨_, hrun, ⟨?_, hb.rows, F, hmk⟩, ⟨rfl, rfl, rfl, fun i h => hs.sc i h, fun a h => hs.aux a h⟩, hsp', rfl, rfl, rfl, ?_⟩
    · rw [hsp']; exact hgood
    have hmem : ∀ s, s ∈ sp' ↔ s ∈ st.species ∨ s = "e" := by
      intro s
      rw [hsp', mem_pySorted, List.mem_append, List.mem_singleton]
    rw [← hsp'] at hD
    -- what the new data holds
    have hkeep : ∀ c : Col, keepCol st.species c = true → keepCol sp' c = true := by
      intro c hk
      simp only [keepCol, Bool.and_eq_true, List.contains_iff_mem, List.mem_append, List.mem_singleton] at hk ⊢
      refine ⟨hk.1, ?_⟩
      rcases hk.2 with h | h
      · exact .inl ((hmem _).mpr (.inl h))
      · exact .inr h
    have hEold : ∀ c : Col, c.s ≠ "e" → Frame.get E c = none := by
      intro c hc
      rw [get_eq_none, hEc]
      intro h
      simp only [List.mem_cons, List.not_mem_nil, or_false] at h
      rcases h with rfl | rfl | rfl | rfl | rfl | rfl <;> exact hc rfl
    have hFold : ∀ c : Col, c.s ≠ "e" → Frame.get F c = Frame.get st.data.fr c := by
      intro c hc
      rw [hF, get_append, hEold c hc, Option.or_none]
    have hDold : ∀ c : Col, c.s ≠ "e" → keepCol st.species c = true → Frame.get D c = Frame.get st.data.fr c := by
      intro c hc hk
      rw [hD, get_buildData, if_pos (hkeep c hk), hFold c hc]
    have hDscalar : ∀ s ∈ st.species, Frame.get D ⟨"w", "scalar", s⟩ = Frame.get st.data.fr ⟨"w", "scalar", s⟩ := by
      intro s hs
      have hse : s ≠ "e" := fun e => he (e ▸ hs)
      have hpar := hd.1 s hs ⟨"w", "par", s⟩ (by simp [ionRequired])
      have hper := hd.1 s hs ⟨"w", "per", s⟩ (by simp [ionRequired])
      have k1 : keepCol st.species ⟨"w", "par", s⟩ = true := hks s hs _ (by simp [ionRequired])
      have k2 : keepCol st.species ⟨"w", "per", s⟩ = true := hks s hs _ (by simp [ionRequired])
      have g1 : Frame.get F ⟨"w", "par", s⟩ = Frame.get fr ⟨"w", "par", s⟩ := by
        rw [hFold _ hse, hdata, get_buildData, if_pos k1]
      have g2 : Frame.get F ⟨"w", "per", s⟩ = Frame.get fr ⟨"w", "per", s⟩ := by
        rw [hFold _ hse, hdata, get_buildData, if_pos k2]
      have c1 : (⟨"w", "par", s⟩ : Col) ∈ Frame.cols F := by rw [← get_isSome, g1, get_isSome]; exact hpar
      have e1 : Frame.get D ⟨"w", "scalar", s⟩ = some (scalarW (Frame.get F ⟨"w", "par", s⟩) (Frame.get F ⟨"w", "per", s⟩)) := by
        rw [hD, get_buildData, if_neg (by rw [keepCol_scalar]; simp), if_pos ⟨rfl, rfl, .inl ((hmem s).mpr (.inl hs)), .inl c1⟩]
      have e2 : Frame.get st.data.fr ⟨"w", "scalar", s⟩ = some (scalarW (Frame.get fr ⟨"w", "par", s⟩) (Frame.get fr ⟨"w", "per", s⟩)) := by
        rw [hdata, get_buildData, if_neg (by rw [keepCol_scalar]; simp), if_pos ⟨rfl, rfl, .inl hs, .inl hpar⟩]
      rw [e1, e2, g1, g2]
    have hDe : ∀ c ∈ ionRequired "e", Frame.get D c = Frame.get E c := by
      intro c hc
      have hce : c.s = "e" := by
        simp only [ionRequired, List.mem_cons, List.not_mem_nil, or_false] at hc
        rcases hc with rfl | rfl | rfl | rfl | rfl | rfl <;> rfl
      have hk : keepCol sp' c = true := by
        have : "e" ∈ sp' := (hmem "e").mpr (.inr rfl)
        simp only [ionRequired, List.mem_cons, List.not_mem_nil, or_false] at hc
        rcases hc with rfl | rfl | rfl | rfl | rfl | rfl <;> simp [keepCol, plasmaM, plasmaC, this]
      rw [hD, get_buildData, if_pos hk, hF, get_append, hnoe c hce, Option.none_or]
    intro i
    refine ⟨?_, ?_, ?_⟩
    · rw [obs_sync st hs]
      simp only [PState.obs, rowOf, obsAt]
      rw [hDold ⟨"b", "x", ""⟩ (by decide) (hkb "x" (by simp)), hDold ⟨"b", "y", ""⟩ (by decide) (hkb "y" (by simp)),
        hDold ⟨"b", "z", ""⟩ (by decide) (hkb "z" (by simp))]
    · intro s hss
      have hse : s ≠ "e" := fun e => he (e ▸ hss)
      rw [obs_sync st hs]
      simp only [PState.obs, rowOf, obsAt]
      rw [hDold ⟨"n", "", s⟩ hse (hks s hss _ (by simp [ionRequired])), hDold ⟨"v", "x", s⟩ hse (hks s hss _ (by simp [ionRequired])),
        hDold ⟨"v", "y", s⟩ hse (hks s hss _ (by simp [ionRequired])), hDold ⟨"v", "z", s⟩ hse (hks s hss _ (by simp [ionRequired]))]
      refine ⟨rfl, rfl, ?_⟩
      intro c hc
      simp only [List.mem_cons, List.not_mem_nil, or_false] at hc
      rcases hc with rfl | rfl | rfl
      · rw [hDold ⟨"w", "par", s⟩ hse (hks s hss _ (by simp [ionRequired]))]
      · rw [hDold ⟨"w", "per", s⟩ hse (hks s hss _ (by simp [ionRequired]))]
      · rw [hDscalar s hss]
    · simp only [PState.obs]
      rw [hDe ⟨"n", "", "e"⟩ (by simp [ionRequired]), hDe ⟨"v", "x", "e"⟩ (by simp [ionRequired]), hDe ⟨"v", "y", "e"⟩ (by simp [ionRequired]),
        hDe ⟨"v", "z", "e"⟩ (by simp [ionRequired]), hDe ⟨"w", "par", "e"⟩ (by simp [ionRequired]), hDe ⟨"w", "per", "e"⟩ (by simp [ionRequired]), hE]
      exact ⟨rfl, rfl, rfl, rfl⟩

/-- **C203** After any history of attaching and detaching spacecraft and auxiliary data and estimating electrons, successful or not: ions and
field belong to the data and what is attached has its time index. -/
theorem C203_histories (K : Const) (new : Tab) (sp : List String) (h : GoodNames sp) (st : PState) (hc : construct new sp = .ok st)
    (ops : List Op) (hops : ∀ op ∈ ops, ∀ d, op ≠ .setData d) :
    InSync (ops.foldl (step K) st) ∧ (ops.foldl (step K) st).data.idx = new.idx := by
  have hidx : st.data.idx = new.idx := by
    unfold construct at hc
    by_cases hi : new.idx = []
    · rw [if_pos hi] at hc; simp at hc
    · rw [if_neg hi] at hc
      cases hm : mkPlasma new.fr sp with
      | error e => rw [hm] at hc; simp at hc
      | ok p => rw [hm] at hc; rw [← Except.ok.inj hc]
  obtain ⟨hb, hs⟩ := construct_built new sp h st hc
  clear hc
  induction ops generalizing st with
  | nil => exact ⟨hs, hidx⟩
  | cons op ops ih =>
    rw [List.foldl_cons]
    have hstep : Built (step K st op) ∧ InSync (step K st op) ∧ (step K st op).data.idx = st.data.idx := by
      cases op with
      | setData d => exact absurd rfl (hops _ List.mem_cons_self d)
      | setSc new =>
        cases new with
        | none => exact ⟨⟨hb.1, hb.2, hb.3⟩, ⟨hs.1, hs.2, hs.3, fun i h => by simp [step, setSc'] at h, hs.5⟩, rfl⟩
        | some idx =>
          by_cases e : idx = st.data.idx
          · have : step K st (.setSc (some idx)) = { st with sc := some idx } := by simp [step, setSc', e]
            rw [this]
            exact ⟨⟨hb.1, hb.2, hb.3⟩, ⟨hs.1, hs.2, hs.3, fun i h => by simp at h; rw [← h, e], hs.5⟩, rfl⟩
          · have : step K st (.setSc (some idx)) = st := by simp [step, setSc', e]
            rw [this]; exact ⟨hb, hs, rfl⟩
      | setAux new =>
        cases new with
        | none => exact ⟨⟨hb.1, hb.2, hb.3⟩, ⟨hs.1, hs.2, hs.3, hs.4, fun i h => by simp [step, setAux'] at h⟩, rfl⟩
        | some a =>
          obtain ⟨idx, cols⟩ := a
          by_cases e : idx = st.data.idx
          · by_cases e2 : cols.any (fun c => (Frame.cols st.data.fr).contains c) = true
            · have : step K st (.setAux (some (idx, cols))) = st := by
                unfold step setAux'
                simp only
                rw [if_neg (by simpa using e), if_pos e2]
              rw [this]; exact ⟨hb, hs, rfl⟩
            · have : step K st (.setAux (some (idx, cols))) = { st with aux := some (idx, cols) } := by
                unfold step setAux'
                simp only
                rw [if_neg (by simpa using e), if_neg e2]
              rw [this]
              exact ⟨⟨hb.1, hb.2, hb.3⟩, ⟨hs.1, hs.2, hs.3, hs.4, fun i h => by simp at h; rw [← h]; exact e⟩, rfl⟩
          · have : step K st (.setAux (some (idx, cols))) = st := by simp [step, setAux', e]
            rw [this]; exact ⟨hb, hs, rfl⟩
      | electrons =>
        cases hp : protonOf st.species with
        | error e =>
          have : step K st .electrons = st := by
            unfold step; rw [(C203_electrons K st hb hs).1 e hp]
          rw [this]; exact ⟨hb, hs, rfl⟩
        | ok tkw =>
          obtain ⟨st', h1, h2, h3, -, h4, -⟩ := (C203_electrons K st hb hs).2 tkw hp
          have : step K st .electrons = st' := by unfold step; rw [h1]
          rw [this]; exact ⟨h2, h3, h4⟩
    exact ih _ (fun op hop => hops op (List.mem_cons_of_mem _ hop)) (by rw [hstep.2.2, hidx]) hstep.1 hstep.2.1

/-- **C203, violated** `set_data` on an existing plasma: data and field are replaced, but every query about ions still answers for the old data,
and spacecraft and auxiliary data stay attached even if their time index is no longer the plasma's. -/
theorem C203_set_data (st : PState) (new : Tab) (st' : PState) (h : setData' st new = (.ok (), st')) :
    st'.data = ⟨new.idx, buildData st.species new.fr⟩ ∧ st'.bfield = st'.data ∧ st'.ions = st.ions ∧ st'.ionData = st.ionData ∧
    st'.sc = st.sc ∧ st'.aux = st.aux ∧
    ∀ i, (st'.obs i).n = (st.obs i).n ∧ (st'.obs i).v = (st.obs i).v ∧ (st'.obs i).w = (st.obs i).w := by
  unfold setData' at h
  by_cases h0 : new.idx = [] ∨ new.fr = []
  · rw [if_pos h0] at h; simp at h
  rw [if_neg h0] at h
  split at h
  · simp at h
  simp only at h
  split at h
  · simp at h
  split at h
  · simp at h
  split at h
  · simp at h
  split at h
  · simp at h
  simp only [Prod.mk.injEq, true_and] at h
  subst h
  exact ⟨rfl, rfl, rfl, rfl, rfl, rfl, fun i => ⟨rfl, rfl, rfl⟩⟩

/-- **C203, violated** A refused `set_data` may have replaced the data all the same: if only the magnetic field is incomplete the call fails, the
data is the new one and the field the old one. -/
theorem C203_half (st : PState) (new : Tab) (e : PyErr) (st' : PState) (h : setData' st new = (.error e, st')) :
    st' = st ∨ (st' = { st with data := ⟨new.idx, buildData st.species new.fr⟩ } ∧
      ∃ k ∈ ["x", "y", "z"], (⟨"b", k, ""⟩ : Col) ∉ Frame.cols new.fr) := by
  unfold setData' at h
  by_cases h0 : new.idx = [] ∨ new.fr = []
  · rw [if_pos h0] at h; simp at h; exact .inl h.2.symm
  rw [if_neg h0] at h
  split at h
  · simp at h; exact .inl h.2.symm
  simp only at h
  split at h
  · simp at h; exact .inl h.2.symm
  have hcol : ∀ k ∈ ["x", "y", "z"], (⟨"b", k, ""⟩ : Col) ∈ Frame.cols new.fr →
      (⟨"b", k, ""⟩ : Col) ∈ Frame.cols (Frame.sel new.fr (keepCol st.species)).dropDup := by
    intro k hk hc
    rw [mem_cols_dropDup, mem_cols_sel]
    refine ⟨hc, ?_⟩
    simp only [List.mem_cons, List.not_mem_nil, or_false] at hk
    rcases hk with rfl | rfl | rfl <;> simp [keepCol, plasmaM, plasmaC]
  have hne : ∀ P : Col → Bool, (∀ k, P ⟨"b", k, ""⟩ = true) →
      (Frame.sel (Frame.sel new.fr (keepCol st.species)).dropDup P).isEmpty = true →
      ∃ k ∈ ["x", "y", "z"], (⟨"b", k, ""⟩ : Col) ∉ Frame.cols new.fr := by
    intro P hP hemp
    by_contra hcon
    push_neg at hcon
    have h1 := hcol "x" (by simp) (hcon "x" (by simp))
    have h2 : (⟨"b", "x", ""⟩ : Col) ∈ Frame.cols (Frame.sel (Frame.sel new.fr (keepCol st.species)).dropDup P) :=
      mem_cols_sel.mpr ⟨h1, hP "x"⟩
    rw [isEmpty_iff_cols.mp hemp] at h2
    simp at h2
  split at h
  · rename_i h3
    simp at h
    exact .inr ⟨h.2.symm, hne _ (fun k => by simp) h3⟩
  split at h
  · rename_i h3
    simp at h
    exact .inr ⟨h.2.symm, hne _ (fun k => by simp) h3⟩
  split at h
  · rename_i h3
    simp at h
    refine .inr ⟨h.2.symm, ?_⟩
    by_contra hcon
    push_neg at hcon
    rw [Bool.not_eq_true', ← Bool.not_eq_true] at h3
    apply h3
    rw [List.all_eq_true]
    intro k hk
    rw [List.contains_iff_mem]
    exact hcol k hk (hcon k hk)
  · simp at h

/-- **C203, violated** Auxiliary data never duplicates plasma data when it is attached, but may later: attach measured electrons, then estimate
electrons in place. -/
theorem C203_duplicate (K : Const) (st : PState) (hb : Built st) (hs : InSync st) (tkw : String) (ht : protonOf st.species = .ok tkw) :
    ∃ st1 st2, setAux' st (some (st.data.idx, [⟨"n", "", "e"⟩])) = (.ok (), st1) ∧ electronsInplace K st1 = (.ok (), st2) ∧
      st2.aux = some (st.data.idx, [⟨"n", "", "e"⟩]) ∧ (⟨"n", "", "e"⟩ : Col) ∈ Frame.cols st2.data.fr := by
  have he : "e" ∉ st.species := by
    intro he
    unfold protonOf at ht
    rw [if_pos (by simpa using he)] at ht
    simp at ht
  obtain ⟨fr, hfr⟩ := hb.made
  obtain ⟨-, hform⟩ := (mkPlasma_ok_iff fr st.species hb.names.1 hb.names.has.1 hb.names.has.2 _).mp hfr
  simp only [Plasma.mk.injEq] at hform
  obtain ⟨hsort, hdata⟩ := hform
  rw [← hsort] at hdata
  have hno : (⟨"n", "", "e"⟩ : Col) ∉ Frame.cols st.data.fr := by
    rw [← get_isSome, hdata, get_buildData, if_neg, if_neg]
    · simp
    · rintro ⟨h, -⟩; revert h; decide
    · simp [keepCol, plasmaM, plasmaC, he]
  have h1 : setAux' st (some (st.data.idx, [⟨"n", "", "e"⟩])) = (.ok (), { st with aux := some (st.data.idx, [⟨"n", "", "e"⟩]) }) := by
    unfold setAux'
    simp only
    rw [if_neg (by simp), if_neg (by simpa using hno)]
  refine ⟨{ st with aux := some (st.data.idx, [⟨"n", "", "e"⟩]) }, ?_⟩
  obtain ⟨st2, h2, h3, h4, h5, -, -, h6, -⟩ := (C203_electrons K { st with aux := some (st.data.idx, [⟨"n", "", "e"⟩]) }
    ⟨hb.1, hb.2, hb.3⟩ ⟨hs.1, hs.2, hs.3, hs.4, fun a ha => by simp at ha; rw [← ha]⟩).2 tkw ht
  refine ⟨st2, h1, h2, h6, ?_⟩
  obtain ⟨fr2, hfr2⟩ := h3.made
  obtain ⟨hd2, hform2⟩ := (mkPlasma_ok_iff fr2 st2.species h3.names.1 h3.names.has.1 h3.names.has.2 _).mp hfr2
  simp only [Plasma.mk.injEq] at hform2
  have hes : "e" ∈ st2.species := by rw [h5, mem_pySorted]; simp
  have hk : keepCol (pySorted st2.species) ⟨"n", "", "e"⟩ = true := by simp [keepCol, plasmaM, plasmaC, mem_pySorted, hes]
  rw [← get_isSome, hform2.2, get_buildData, if_pos hk, get_isSome]
  exact hd2.1 "e" hes _ (by simp [ionRequired])

/-! ### Non-vacuity -/

/-- the example data with three times -/
def exTab : Tab := ⟨[0, 1, 2], exLabels.map fun c => (c, fun i => .fin (i + 1 : ℤ))⟩

theorem ex_good : GoodNames ["p1", "a"] := ⟨by simp, by decide, by decide⟩

theorem ex_construct : ∃ st, construct exTab ["p1", "a"] = .ok st ∧ protonOf st.species = .ok "p1" := by
  have hcols : Frame.cols exTab.fr = exLabels := by simp [exTab, Frame.cols, List.map_map, Function.comp_def]
  obtain ⟨p, hp⟩ := (C03_accepted exTab.fr ["p1", "a"] ex_good.1 ex_good.2.1 ex_good.2.2).1.mpr (by rw [hcols]; decide)
  have hperm := ((C03_accepted exTab.fr ["p1", "a"] ex_good.1 ex_good.2.1 ex_good.2.2).2 p hp).1
  refine ⟨⟨p.species, ⟨exTab.idx, p.data⟩, ⟨exTab.idx, p.data⟩, p.species, ⟨exTab.idx, p.data⟩, none, none⟩, ?_, ?_⟩
  · unfold construct
    rw [if_neg (by simp [exTab]), hp]
  · have h1 : p.species.contains "e" = false := by
      rw [← Bool.not_eq_true, List.contains_iff_mem, hperm.mem_iff]; decide
    have h2 : p.species.contains "p" = false := by
      rw [← Bool.not_eq_true, List.contains_iff_mem, hperm.mem_iff]; decide
    have h3 : p.species.contains "p1" = true := by
      rw [List.contains_iff_mem, hperm.mem_iff]; decide
    show protonOf p.species = _
    unfold protonOf
    rw [h1, h2, h3]; rfl

example (K : Const) : ∃ st, construct exTab ["p1", "a"] = .ok st ∧ Built st ∧ InSync st ∧ ∃ st', electronsInplace K st = (.ok (), st') ∧
    "e" ∈ st'.species := by
  obtain ⟨st, h, hp⟩ := ex_construct
  obtain ⟨hb, hs⟩ := construct_built _ _ ex_good st h
  obtain ⟨st', h1, -, -, h2, -⟩ := (C203_electrons K st hb hs).2 _ hp
  exact ⟨st, h, hb, hs, st', h1, by rw [h2, mem_pySorted]; simp⟩

example : ∃ st st', construct exTab ["p1", "a"] = .ok st ∧ setData' st ⟨[7], exTab.fr⟩ = (.ok (), st') ∧ st'.data.idx = [7] ∧
    st'.ionData.idx = [0, 1, 2] := by
  obtain ⟨st, h, -⟩ := ex_construct
  obtain ⟨hb, hs⟩ := construct_built _ _ ex_good st h
  unfold construct at h
  rw [if_neg (by simp [exTab])] at h
  cases hm : mkPlasma exTab.fr ["p1", "a"] with
  | error e => rw [hm] at h; simp at h
  | ok p =>
    rw [hm] at h
    simp only at h
    have hst := (Except.ok.inj h).symm
    have hm2 := (mkPlasma_sorted ex_good p hm).1
    have hsp : st.species = p.species := by rw [hst]
    have hset : ∃ d, setData st.species exTab.fr = .ok d := by
      have hsorted : pySorted p.species = p.species := by
        have := ((C03_accepted exTab.fr ["p1", "a"] ex_good.1 ex_good.2.1 ex_good.2.2).2 p hm).2
        exact pySorted_of_sorted this
      have hg := (mkPlasma_sorted ex_good p hm).2
      unfold mkPlasma at hm2
      rw [cleanSpecies_ok p.species hg.1 hg.has.1, hsorted] at hm2
      simp only at hm2
      rw [hsp]
      cases hd : setData p.species exTab.fr with
      | error e => rw [hd] at hm2; simp at hm2
      | ok d => exact ⟨d, rfl⟩
    obtain ⟨d, hd⟩ := hset
    refine ⟨st, _, ?_, setData'_ok st ⟨[7], exTab.fr⟩ d (by simp) hd, rfl, ?_⟩
    · unfold construct
      rw [if_neg (by simp [exTab]), hm, hst]
    · rw [hst]; rfl

/-- C202: hasattr on a constructed plasma answers whether the name is a class name, an instance variable or a known species. -/
theorem C202_hasattr (ions : List String) (a : String) :
    ∃ N, ∀ n, N ≤ n → hasAttr ⟨fullVars, ions⟩ n a = some (.ok (decide ((a ∈ properties.map Prod.fst ∨ a ∈ methods ∨ a ∈ fullVars) ∨ a ∈ ions))) := by
  obtain ⟨h1, h2, h3, h4⟩ := C202_access ions a
  unfold hasAttr
  by_cases hf : Found fullVars a
  · obtain ⟨N, v, hv, -⟩ := h2 hf
    refine ⟨N, fun n hn => ?_⟩
    rw [hv n hn]
    simp only [decide_eq_true (Or.inl (h1.mp hf) : (a ∈ properties.map Prod.fst ∨ a ∈ methods ∨ a ∈ fullVars) ∨ a ∈ ions)]
  · refine ⟨3, fun n hn => ?_⟩
    by_cases hi : a ∈ ions
    · rw [h3 hf hi n hn]
      simp only [decide_eq_true (Or.inr hi : (a ∈ properties.map Prod.fst ∨ a ∈ methods ∨ a ∈ fullVars) ∨ a ∈ ions)]
    · rw [h4 hf hi n hn]
      have : ¬ ((a ∈ properties.map Prod.fst ∨ a ∈ methods ∨ a ∈ fullVars) ∨ a ∈ ions) := by
        rintro (h | h)
        · exact hf (h1.mpr h)
        · exact hi h
      simp only [decide_eq_false this]

/-- C203: which attachments are refused: a spacecraft or auxiliary data with another index (AssertionError), auxiliary data with a column of the
plasma (ValueError); the plasma is then unchanged; anything else is attached and nothing but that changes. -/
theorem C203_refused (st : PState) :
    (∀ idx, idx ≠ st.data.idx → setSc' st (some idx) = (.error .assertionError, st)) ∧
    (setSc' st (some st.data.idx) = (.ok (), { st with sc := some st.data.idx })) ∧
    (setSc' st none = (.ok (), { st with sc := none })) ∧
    (∀ idx cols, idx ≠ st.data.idx → setAux' st (some (idx, cols)) = (.error .assertionError, st)) ∧
    (∀ cols, (∃ c ∈ cols, c ∈ Frame.cols st.data.fr) → setAux' st (some (st.data.idx, cols)) = (.error .valueError, st)) ∧
    (∀ cols, (∀ c ∈ cols, c ∉ Frame.cols st.data.fr) →
      setAux' st (some (st.data.idx, cols)) = (.ok (), { st with aux := some (st.data.idx, cols) })) ∧
    (setAux' st none = (.ok (), { st with aux := none })) ∧
    (∀ new : Tab, new.idx = [] ∨ new.fr = [] → setData' st new = (.error .valueError, st)) ∧
    (∀ (new : Tab) sp, new.idx = [] → construct new sp = .error .valueError) := by
  refine ⟨?_, ?_, rfl, ?_, ?_, ?_, rfl, ?_, ?_⟩
  · intro idx h; simp only [setSc', if_neg h]
  · simp only [setSc', if_true]
  · intro idx cols h; simp only [setAux', if_pos h]
  · rintro cols ⟨c, hc, hd⟩
    unfold setAux'
    have : cols.any (fun c => (Frame.cols st.data.fr).contains c) = true := List.any_eq_true.mpr ⟨c, hc, by simpa using hd⟩
    simp only [ne_eq, not_true_eq_false, if_false, this, if_true]
  · intro cols h
    unfold setAux'
    have : cols.any (fun c => (Frame.cols st.data.fr).contains c) = false := by
      rw [List.any_eq_false]; intro c hc; simpa using h c hc
    simp only [ne_eq, not_true_eq_false, if_false, this, Bool.false_eq_true]
  · intro new h; unfold setData'; rw [if_pos h]
  · intro new sp h; unfold construct; rw [if_pos h]

end PObj
end SW
