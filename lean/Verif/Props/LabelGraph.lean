import Verif.LabelGraph

/-! # Labels after a change: C215 -/

namespace SW
namespace Labels

/-! ## Specification: what labels with given settings should say -/

/-- a constituent, given what the labels made before say -/
def refSay (tab : List Say) : Ref → Except PyErr Part
  | .str s => .ok (.str s)
  | .obj i => match tab[i]? with
    | some s => .ok (.label s.tex s.path s.units)
    | none => .error .attributeError

/-- units of a constituent -/
def Part.units? : Part → Option String
  | .str _ => none
  | .label _ _ u => u

/-- a label says what its class says of what its constituents say -/
def meaning (tab : List Say) : Cls → Except PyErr Say
  | .live p => .ok p
  | .stored p => .ok p
  | .prob o k => do
    let p ← refSay tab o
    let r ← probability p (some k)
    .ok ⟨r.1, r.2, some "\\%"⟩
  | .cnt o k => do
    let p ← refSay tab o
    let r ← countOther p (some k)
    .ok ⟨r.1, r.2, some "\\#"⟩
  | .fcn g o d => do
    let p ← refSay tab o
    let r ← mathFcn g p
    .ok ⟨r.1, r.2, if d then some "\\mathrm{\\#}" else p.units?.map (fun u => "\\mathrm{" ++ g ++ "}\\left(" ++ u ++ "\\right)")⟩
  | .abs o => do
    let p ← refSay tab o
    let r ← absoluteValue p
    .ok ⟨r.1, r.2, p.units?⟩
  | .cmp a b name => do
    let p ← refSay tab a
    let q ← refSay tab b
    let r ← comparison p q name
    .ok ⟨r.1, comparisonPath p q name, some r.2⟩
  | .xcorr a b m s => do
    let p ← refSay tab a
    let q ← refSay tab b
    let r ← xcorr (some p) (some q) m s
    .ok ⟨r.1, r.2, some "\\#"⟩
  | .freq o => do
    let p ← refSay tab o
    let u ← p.units
    .ok ⟨"\\mathrm{Frequency}", freqPath (frequencyUnits u), some (frequencyUnits u)⟩

/-- what labels with these settings say, in the order of their creation (each may refer to earlier ones) -/
def sayFrom (tab : List Say) : List Cls → Except PyErr (List Say)
  | [] => .ok tab
  | c :: cs => do
    let s ← meaning tab c
    sayFrom (tab ++ [s]) cs

def sayAll (cs : List Cls) : Except PyErr (List Say) := sayFrom [] cs

/-- the settings in force -/
def settings (h : Heap) : List Cls := h.map Node.cls

/-- the label objects say what the table says (units: for every recursion limit above the number of labels made before) -/
def Shows (h : Heap) (tab : List Say) : Prop :=
  tab.length = h.length ∧ ∀ (i : Nat) (s : Say), tab[i]? = some s →
    texOf h i = .ok s.tex ∧ pathOf h i = .ok s.path ∧ ∀ g : Nat, i < g → unitsAt g h i = unitsAttr s.units

/-- refreshing one label: its constituents again (comparisons), then `build_label` -/
def refreshOps (i : Nat) : Cls → List LOp
  | .cmp a b _ => [.setParts i a b, .build i]
  | _ => [.build i]

/-- refreshing all labels in the order of their creation -/
def refreshAll (cs : List Cls) : List LOp := (cs.zipIdx.map (fun ci => refreshOps ci.2 ci.1)).flatten

/-! ## Lemmas -/

/-- constituents that are labels -/
def refIds : Cls → List Nat
  | .live _ | .stored _ => []
  | .prob o _ | .cnt o _ | .fcn _ o _ | .abs o | .freq o => (match o with | .obj i => [i] | .str _ => [])
  | .cmp a b _ | .xcorr a b _ _ => (match a with | .obj i => [i] | .str _ => []) ++ (match b with | .obj i => [i] | .str _ => [])

/-- the invariant while refreshing: the first `tab.length` labels are right and refer to earlier ones -/
structure UpTo (h : Heap) (tab : List Say) : Prop where
  le : tab.length ≤ h.length
  ok : ∀ (i : Nat) (s : Say), tab[i]? = some s →
    texOf h i = .ok s.tex ∧ pathOf h i = .ok s.path ∧ ∀ g : Nat, i < g → unitsAt g h i = unitsAttr s.units
  ord : ∀ (i : Nat) (n : Node), h[i]? = some n → i < tab.length → ∀ r ∈ refIds n.cls, r < i

theorem unitsAt_congr (h h' : Heap) (k : Nat) (hag : ∀ i, i < k → h'[i]? = h[i]?)
    (ord : ∀ (i : Nat) (n : Node), h[i]? = some n → i < k → ∀ r ∈ refIds n.cls, r < i) :
    ∀ (g i : Nat), i < k → unitsAt g h' i = unitsAt g h i := by
  intro g
  induction g with
  | zero => intros; rfl
  | succ g ih =>
    intro i hi
    have ho := ord i
    simp only [unitsAt, hag i hi]
    rcases hn : h[i]? with _ | n
    · rfl
    · have ho := ho n hn hi
      simp only
      rcases hc : n.cls with p | p | ⟨o, q⟩ | ⟨o, q⟩ | ⟨f, o, d⟩ | o | ⟨a, b, m⟩ | ⟨a, b, m, s⟩ | o <;> try rfl
      all_goals
        rcases o with s | j
        · rfl
        · have hj : j < k := by
            have := ho j (by rw [hc]; simp [refIds])
            omega
          simp only [ih j hj]

theorem UpTo.part {h : Heap} {tab : List Say} (H : UpTo h tab) {o : Ref} {p : Part} (hp : refSay tab o = .ok p) :
    (∃ q, partOf h o = .ok q ∧ q.tex = p.tex ∧ q.path = p.path ∧ q.anyTex = p.anyTex ∧ q.anyPath = p.anyPath) ∧
    (∀ i, o = .obj i → i < tab.length ∧ ∀ f, tab.length ≤ f → unitsAt f h i = unitsAttr p.units?) ∧
    (∀ s, o = .str s → p = .str s) := by
  rcases o with s | i
  · simp only [refSay, Except.ok.injEq] at hp
    subst hp
    exact ⟨⟨.str s, rfl, rfl, rfl, rfl, rfl⟩, fun i hi => (by cases hi), fun t ht => (by cases ht; rfl)⟩
  · rcases ht : tab[i]? with _ | s
    · simp [refSay, ht] at hp
    · simp only [refSay, ht, Except.ok.injEq] at hp
      subst hp
      have hl : i < tab.length := by
        by_contra hcon
        rw [List.getElem?_eq_none (by omega)] at ht
        cases ht
      obtain ⟨h1, h2, h3⟩ := H.ok i s ht
      refine ⟨⟨.label s.tex s.path none, ?_, rfl, rfl, rfl, rfl⟩, ?_, fun t ht => (by cases ht)⟩
      · simp only [partOf, h1, h2, bind, Except.bind]
      · intro j hj
        cases hj
        exact ⟨hl, fun f hf => h3 f (by omega)⟩

theorem probability_congr {p q : Part} (h1 : q.tex = p.tex) (h2 : q.path = p.path) (k : Option String) : probability q k = probability p k := by
  simp only [probability, h1, h2]
theorem countOther_congr {p q : Part} (h1 : q.tex = p.tex) (h2 : q.path = p.path) (k : Option String) : countOther q k = countOther p k := by
  simp only [countOther, h1, h2]
theorem mathFcn_congr {p q : Part} (h1 : q.tex = p.tex) (h2 : q.path = p.path) (g : String) : mathFcn g q = mathFcn g p := by
  simp only [mathFcn, h1, h2]
theorem absoluteValue_congr {p q : Part} (h1 : q.tex = p.tex) (h2 : q.path = p.path) : absoluteValue q = absoluteValue p := by
  simp only [absoluteValue, h1, h2]
theorem xcorr_congr {p q p' q' : Part} (h1 : p'.anyTex = p.anyTex) (h2 : p'.anyPath = p.anyPath) (h3 : q'.anyTex = q.anyTex)
    (h4 : q'.anyPath = q.anyPath) (m : String) (s : Bool) : xcorr (some p') (some q') m s = xcorr (some p) (some q) m s := by
  simp only [xcorr, h1, h2, h3, h4]

theorem UpTo.hasUnits {h : Heap} {tab : List Say} (H : UpTo h tab) {o : Ref} {p : Part} (hp : refSay tab o = .ok p) (f : Nat)
    (hf : tab.length ≤ f) : Labels.hasUnits f h o = .ok p.units? := by
  obtain ⟨-, h2, h3⟩ := H.part hp
  rcases o with s | i
  · rw [h3 s rfl]
    rfl
  · obtain ⟨-, hu⟩ := h2 i rfl
    simp only [Labels.hasUnits, hu f hf]
    rcases p.units? with _ | u <;> rfl

/-- the units of a comparison as set by `set_constituents` -/
theorem UpTo.cmpUnits {h : Heap} {tab : List Say} (H : UpTo h tab) {a b : Ref} {p q : Part} (hp : refSay tab a = .ok p)
    (hq : refSay tab b = .ok q) (f : Nat) (hf : tab.length ≤ f) : setConstituentsUnits f h a b = comparisonUnits p q := by
  simp only [setConstituentsUnits, H.hasUnits hp f hf, H.hasUnits hq f hf, bind, Except.bind]
  rcases p with s | ⟨t, w, _ | u⟩ <;> rcases q with s' | ⟨t', w', _ | u'⟩ <;> rfl

/-- does the class store its units? -/
def keeps : Cls → Bool
  | .stored _ | .cmp _ _ _ => true
  | _ => false

/-- the units an object stores -/
def keptUnits (c : Cls) (s : Say) : Option String :=
  match c with
  | .stored _ | .cmp _ _ _ => s.units
  | _ => none

/-- what `build_label` and the setters store is what the label should say -/
theorem UpTo.built {h : Heap} {tab : List Say} (H : UpTo h tab) {c : Cls} {s : Say} (hm : meaning tab c = .ok s) (f : Nat)
    (hf : tab.length ≤ f) :
    (∀ r ∈ refIds c, r < tab.length) ∧ storedUnits f h c = .ok (keptUnits c s) ∧
    ∀ old : String × String, ∃ tp, built f h c old = .ok tp ∧
      ∀ (h' : Heap) (n : Node), (∀ i, i < tab.length → h'[i]? = h[i]?) → h'[tab.length]? = some n → n.cls = c → n.tex = tp.1 → n.path = tp.2 →
        keptUnits c s = n.units ∨ keeps c = false →
        texOf h' tab.length = .ok s.tex ∧ pathOf h' tab.length = .ok s.path ∧
          ∀ g : Nat, tab.length < g → unitsAt g h' tab.length = unitsAttr s.units := by
  have key : ∀ (o : Ref) (p : Part), refSay tab o = .ok p → ∀ h' : Heap, (∀ i, i < tab.length → h'[i]? = h[i]?) → ∀ i, o = .obj i →
      ∀ g, tab.length ≤ g → unitsAt g h' i = unitsAttr p.units? := by
    intro o p hp h' hag i hi g hg
    obtain ⟨hl, hu⟩ := (H.part hp).2.1 i hi
    rw [unitsAt_congr h h' tab.length hag H.ord g i hl]
    exact hu g hg
  rcases c with p | p | ⟨o, k⟩ | ⟨o, k⟩ | ⟨gf, o, d⟩ | o | ⟨a, b, m⟩ | ⟨a, b, m, sh⟩ | o
  · simp only [meaning, Except.ok.injEq] at hm
    subst hm
    refine ⟨by simp [refIds], rfl, fun old => ⟨old, rfl, ?_⟩⟩
    intro h' n _ hn hc ht hp _
    refine ⟨by simp [texOf, hn, hc], by simp [pathOf, hn, hc], fun g hg => ?_⟩
    obtain ⟨g, rfl⟩ : ∃ k, g = k + 1 := ⟨g - 1, by omega⟩
    simp [unitsAt, hn, hc]
  · simp only [meaning, Except.ok.injEq] at hm
    subst hm
    refine ⟨by simp [refIds], rfl, fun old => ⟨(p.tex, p.path), rfl, ?_⟩⟩
    intro h' n _ hn hc ht hp hu
    refine ⟨by simp [texOf, hn, hc, ht], by simp [pathOf, hn, hc, hp], fun g hg => ?_⟩
    obtain ⟨g, rfl⟩ : ∃ k, g = k + 1 := ⟨g - 1, by omega⟩
    rcases hu with hu | hu
    · simp only [keptUnits] at hu
      simp [unitsAt, hn, hc, hu]
    · cases hu
  · simp only [meaning, bind, Except.bind] at hm
    rcases hp : refSay tab o with e | p <;> simp only [hp] at hm
    · cases hm
    rcases hr : probability p (some k) with e | r <;> simp only [hr] at hm
    · cases hm
    simp only [Except.ok.injEq] at hm
    subst hm
    obtain ⟨⟨q, hq, e1, e2, -, -⟩, hi, -⟩ := H.part hp
    refine ⟨?_, rfl, fun old => ⟨r, ?_, ?_⟩⟩
    · rcases o with _ | i
      · simp [refIds]
      · simpa [refIds] using (hi i rfl).1
    · simp only [Labels.built, hq, bind, Except.bind, probability_congr e1 e2, hr]
    · intro h' n _ hn hc ht hp' _
      refine ⟨by simp [texOf, hn, hc, ht], by simp [pathOf, hn, hc, hp'], fun g hg => ?_⟩
      obtain ⟨g, rfl⟩ : ∃ k, g = k + 1 := ⟨g - 1, by omega⟩
      simp [unitsAt, hn, hc, unitsAttr]
  · simp only [meaning, bind, Except.bind] at hm
    rcases hp : refSay tab o with e | p <;> simp only [hp] at hm
    · cases hm
    rcases hr : countOther p (some k) with e | r <;> simp only [hr] at hm
    · cases hm
    simp only [Except.ok.injEq] at hm
    subst hm
    obtain ⟨⟨q, hq, e1, e2, -, -⟩, hi, -⟩ := H.part hp
    refine ⟨?_, rfl, fun old => ⟨r, ?_, ?_⟩⟩
    · rcases o with _ | i
      · simp [refIds]
      · simpa [refIds] using (hi i rfl).1
    · simp only [Labels.built, hq, bind, Except.bind, countOther_congr e1 e2, hr]
    · intro h' n _ hn hc ht hp' _
      refine ⟨by simp [texOf, hn, hc, ht], by simp [pathOf, hn, hc, hp'], fun g hg => ?_⟩
      obtain ⟨g, rfl⟩ : ∃ k, g = k + 1 := ⟨g - 1, by omega⟩
      simp [unitsAt, hn, hc, unitsAttr]
  · simp only [meaning, bind, Except.bind] at hm
    rcases hp : refSay tab o with e | p <;> simp only [hp] at hm
    · cases hm
    rcases hr : mathFcn gf p with e | r <;> simp only [hr] at hm
    · cases hm
    simp only [Except.ok.injEq] at hm
    subst hm
    obtain ⟨⟨q, hq, e1, e2, -, -⟩, hi, hstr⟩ := H.part hp
    refine ⟨?_, rfl, fun old => ⟨r, ?_, ?_⟩⟩
    · rcases o with _ | i
      · simp [refIds]
      · simpa [refIds] using (hi i rfl).1
    · simp only [Labels.built, hq, bind, Except.bind, mathFcn_congr e1 e2, hr]
    · intro h' n hag hn hc ht hp' _
      refine ⟨by simp [texOf, hn, hc, ht], by simp [pathOf, hn, hc, hp'], fun g hg => ?_⟩
      obtain ⟨g, rfl⟩ : ∃ k, g = k + 1 := ⟨g - 1, by omega⟩
      simp only [unitsAt, hn, hc]
      cases d
      · rcases o with s | i
        · rw [hstr s rfl]
          rfl
        · have hk := key _ _ hp h' hag i rfl g (by omega)
          simp only [hk]
          rcases p.units? with _ | u <;> rfl
      · rfl
  · simp only [meaning, bind, Except.bind] at hm
    rcases hp : refSay tab o with e | p <;> simp only [hp] at hm
    · cases hm
    rcases hr : absoluteValue p with e | r <;> simp only [hr] at hm
    · cases hm
    simp only [Except.ok.injEq] at hm
    subst hm
    obtain ⟨⟨q, hq, e1, e2, -, -⟩, hi, hstr⟩ := H.part hp
    refine ⟨?_, rfl, fun old => ⟨r, ?_, ?_⟩⟩
    · rcases o with _ | i
      · simp [refIds]
      · simpa [refIds] using (hi i rfl).1
    · simp only [Labels.built, hq, bind, Except.bind, absoluteValue_congr e1 e2, hr]
    · intro h' n hag hn hc ht hp' _
      refine ⟨by simp [texOf, hn, hc, ht], by simp [pathOf, hn, hc, hp'], fun g hg => ?_⟩
      obtain ⟨g, rfl⟩ : ∃ k, g = k + 1 := ⟨g - 1, by omega⟩
      simp only [unitsAt, hn, hc]
      rcases o with s | i
      · rw [hstr s rfl]
        rfl
      · exact key _ _ hp h' hag i rfl g (by omega)
  · simp only [meaning, bind, Except.bind] at hm
    rcases hp : refSay tab a with e | p <;> simp only [hp] at hm
    · cases hm
    rcases hq : refSay tab b with e | q <;> simp only [hq] at hm
    · cases hm
    rcases hr : comparison p q m with e | r <;> simp only [hr] at hm
    · cases hm
    simp only [Except.ok.injEq] at hm
    subst hm
    obtain ⟨⟨p', hp', -, -, e1, e2⟩, hi, -⟩ := H.part hp
    obtain ⟨⟨q', hq', -, -, e3, e4⟩, hj, -⟩ := H.part hq
    simp only [comparison, bind, Except.bind] at hr
    rcases hu : comparisonUnits p q with e | u <;> simp only [hu] at hr
    · cases hr
    rcases hop : comparisonPattern m with e | op <;> simp only [hop] at hr
    · cases hr
    simp only [Except.ok.injEq] at hr
    subst hr
    have hcu := H.cmpUnits hp hq f hf
    have hsu : storedUnits f h (.cmp a b m) = .ok (some u) := by
      simp only [storedUnits, hcu, hu, hop, bind, Except.bind]
    refine ⟨?_, hsu, fun old => ⟨(squeeze ("{" ++ p.anyTex ++ "}" ++ op ++ "{" ++ q.anyTex ++ "}").length
      ("{" ++ p.anyTex ++ "}" ++ op ++ "{" ++ q.anyTex ++ "}"), comparisonPath p' q' m), ?_, ?_⟩⟩
    · rcases a with _ | i <;> rcases b with _ | j
      · simp [refIds]
      · simpa [refIds] using (hj j rfl).1
      · simpa [refIds] using (hi i rfl).1
      · simpa [refIds] using ⟨(hi i rfl).1, (hj j rfl).1⟩
    · simp only [Labels.built, hp', hq', hop, bind, Except.bind, e1, e3]
    · intro h' n hag hn hc ht hpa hun
      refine ⟨by simp [texOf, hn, hc, ht], ?_, fun g hg => ?_⟩
      · simp only [pathOf, hn, hc, hpa, comparisonPath, e2, e4]
      · obtain ⟨g, rfl⟩ : ∃ k, g = k + 1 := ⟨g - 1, by omega⟩
        rcases hun with hun | hun
        · simp only [keptUnits] at hun
          simp only [unitsAt, hn, hc, ← hun]
        · cases hun
  · simp only [meaning, bind, Except.bind] at hm
    rcases hp : refSay tab a with e | p <;> simp only [hp] at hm
    · cases hm
    rcases hq : refSay tab b with e | q <;> simp only [hq] at hm
    · cases hm
    rcases hr : xcorr (some p) (some q) m sh with e | r <;> simp only [hr] at hm
    · cases hm
    simp only [Except.ok.injEq] at hm
    subst hm
    obtain ⟨⟨p', hp', -, -, e1, e2⟩, hi, -⟩ := H.part hp
    obtain ⟨⟨q', hq', -, -, e3, e4⟩, hj, -⟩ := H.part hq
    refine ⟨?_, rfl, fun old => ⟨r, ?_, ?_⟩⟩
    · rcases a with _ | i <;> rcases b with _ | j
      · simp [refIds]
      · simpa [refIds] using (hj j rfl).1
      · simpa [refIds] using (hi i rfl).1
      · simpa [refIds] using ⟨(hi i rfl).1, (hj j rfl).1⟩
    · simp only [Labels.built, hp', hq', bind, Except.bind, xcorr_congr e1 e2 e3 e4, hr]
    · intro h' n _ hn hc ht hpa _
      refine ⟨by simp [texOf, hn, hc, ht], by simp [pathOf, hn, hc, hpa], fun g hg => ?_⟩
      obtain ⟨g, rfl⟩ : ∃ k, g = k + 1 := ⟨g - 1, by omega⟩
      simp [unitsAt, hn, hc, unitsAttr]
  · simp only [meaning, bind, Except.bind] at hm
    rcases hp : refSay tab o with e | p <;> simp only [hp] at hm
    · cases hm
    rcases o with so | i
    · have := (H.part hp).2.2 so rfl
      subst this
      simp [Part.units] at hm
    · obtain ⟨hl, hun⟩ := (H.part hp).2.1 i rfl
      have hpu : p.units = unitsAttr p.units? := by
        rcases p with s | ⟨t, w, _ | u⟩ <;> rfl
      rcases hr : p.units? with _ | u
      · rw [hpu, hr] at hm
        simp [unitsAttr] at hm
      · rw [hpu, hr] at hm
        simp only [unitsAttr, Except.ok.injEq] at hm
        subst hm
        refine ⟨by simpa [refIds] using hl, rfl, fun old => ⟨(old.1, freqPath (frequencyUnits u)), ?_, ?_⟩⟩
        · simp only [Labels.built, hun f hf, hr, unitsAttr, bind, Except.bind]
        · intro h' n hag hn hc ht hpa _
          refine ⟨by simp [texOf, hn, hc], by simp [pathOf, hn, hc, hpa], fun g hg => ?_⟩
          obtain ⟨g, rfl⟩ : ∃ k, g = k + 1 := ⟨g - 1, by omega⟩
          have hk := key _ _ hp h' hag i rfl g (by omega)
          simp only [unitsAt, hn, hc, hk, hr, unitsAttr]
          rfl

theorem UpTo.congr {h h' : Heap} {tab : List Say} (H : UpTo h tab) (hlen : tab.length ≤ h'.length)
    (hag : ∀ i, i < tab.length → h'[i]? = h[i]?) : UpTo h' tab := by
  have hlt : ∀ {i : Nat} {s : Say}, tab[i]? = some s → i < tab.length := by
    intro i s hi
    by_contra hcon
    rw [List.getElem?_eq_none (by omega)] at hi
    cases hi
  refine ⟨hlen, fun i s hi => ?_, fun i n hn hi => ?_⟩
  · obtain ⟨h1, h2, h3⟩ := H.ok i s hi
    have hk := hag i (hlt hi)
    refine ⟨?_, ?_, fun g hg => ?_⟩
    · rw [← h1]; simp only [texOf, hk]
    · rw [← h2]; simp only [pathOf, hk]
    · rw [unitsAt_congr h h' tab.length hag H.ord g i (hlt hi)]
      exact h3 g hg
  · rw [hag i hi] at hn
    exact H.ord i n hn hi

theorem UpTo.extend {h : Heap} {tab : List Say} {s : Say} {n : Node} (H : UpTo h tab) (hn : h[tab.length]? = some n)
    (hr : ∀ r ∈ refIds n.cls, r < tab.length)
    (hs : texOf h tab.length = .ok s.tex ∧ pathOf h tab.length = .ok s.path ∧
      ∀ g : Nat, tab.length < g → unitsAt g h tab.length = unitsAttr s.units) : UpTo h (tab ++ [s]) := by
  have hl : tab.length < h.length := by
    by_contra hcon
    rw [List.getElem?_eq_none (by omega)] at hn
    cases hn
  refine ⟨by simp; omega, fun i t hi => ?_, fun i m hm hi => ?_⟩
  · by_cases hlt : i < tab.length
    · rw [List.getElem?_append_left hlt] at hi
      exact H.ok i t hi
    · have hi2 : i = tab.length := by
        by_contra hne
        rw [List.getElem?_eq_none (by simp; omega)] at hi
        cases hi
      subst hi2
      rw [List.getElem?_append_right (le_refl _)] at hi
      simp only [Nat.sub_self, List.getElem?_cons_zero, Option.some.injEq] at hi
      subst hi
      exact hs
  · simp only [List.length_append, List.length_cons, List.length_nil] at hi
    by_cases hlt : i < tab.length
    · exact H.ord i m hm hlt
    · have : i = tab.length := by omega
      subst this
      rw [hn] at hm
      cases hm
      exact hr

/-- one label of a right prefix refreshed -/
theorem UpTo.refresh {h : Heap} {tab : List Say} {n : Node} {s : Say} (H : UpTo h tab) (hn : h[tab.length]? = some n)
    (hm : meaning tab n.cls = .ok s) (f : Nat) (hf : tab.length ≤ f) :
    ∃ n', n'.cls = n.cls ∧ lrun f h (refreshOps tab.length n.cls) = .ok (h.set tab.length n') ∧ UpTo (h.set tab.length n') (tab ++ [s]) := by
  have hl : tab.length < h.length := by
    by_contra hcon
    rw [List.getElem?_eq_none (by omega)] at hn
    cases hn
  have hagree : ∀ (m : Node) (i : Nat), i < tab.length → (h.set tab.length m)[i]? = h[i]? := by
    intro m i hi
    rw [List.getElem?_set_ne (by omega)]
  have hat : ∀ m : Node, (h.set tab.length m)[tab.length]? = some m := by
    intro m
    rw [List.getElem?_set_self (by omega)]
  by_cases hcmp : ∃ a b name, n.cls = .cmp a b name
  · obtain ⟨a, b, name, hc⟩ := hcmp
    obtain ⟨hr, hsu, -⟩ := H.built hm f hf
    have hset : setConstituentsUnits f h a b = .ok (s.units.getD "") ∧ s.units = some (s.units.getD "") := by
      rw [hc] at hsu
      simp only [storedUnits, bind, Except.bind, keptUnits] at hsu
      rcases hq : setConstituentsUnits f h a b with e | u <;> rw [hq] at hsu
      · cases hsu
      · rcases hop : comparisonPattern name with e | op <;> rw [hop] at hsu
        · cases hsu
        · simp only [Except.ok.injEq] at hsu
          rw [← hsu]
          exact ⟨rfl, rfl⟩
    obtain ⟨n1, hn1⟩ : ∃ n1 : Node, n1 = { n with cls := .cmp a b name, units := s.units } := ⟨_, rfl⟩
    have H1 : UpTo (h.set tab.length n1) tab := H.congr (by simp; omega) (hagree n1)
    have hc1 : n1.cls = n.cls := by rw [hn1, hc]
    obtain ⟨-, hsu1, hb⟩ := H1.built hm f hf
    obtain ⟨tp, hb1, hb2⟩ := hb (n1.tex, n1.path)
    obtain ⟨n2, hn2⟩ : ∃ n2 : Node, n2 = { n1 with tex := tp.1, path := tp.2, units := builtUnits n1 } := ⟨_, rfl⟩
    have hc2 : n2.cls = n.cls := by rw [hn2, ← hc1]
    refine ⟨n2, hc2, ?_, ?_⟩
    · rw [hc]
      have e1 : lstep f h (.setParts tab.length a b) = (h.set tab.length n1, .ok ()) := by
        simp only [lstep, hn, hc, hset.1]
        rw [hn1, ← hset.2]
      have e2 : lstep f (h.set tab.length n1) (.build tab.length) = (h.set tab.length n2, .ok ()) := by
        simp only [lstep, hat, hc1, hb1]
        rw [List.set_set, hn2, hc1]
      simp only [refreshOps, lrun, e1, e2]
    · have hshow := hb2 (h.set tab.length n2) n2 (fun i hi => by rw [hagree n2 i hi, hagree n1 i hi]) (hat n2) hc2 (by rw [hn2]) (by rw [hn2])
        (by left; rw [hn2, hn1, hc]; rfl)
      exact (H.congr (h' := h.set tab.length n2) (by simp; omega) (hagree n2)).extend (hat n2) (by rw [hc2]; exact hr) hshow
  · obtain ⟨hr, hsu, hb⟩ := H.built hm f hf
    obtain ⟨tp, hb1, hb2⟩ := hb (n.tex, n.path)
    obtain ⟨n2, hn2⟩ : ∃ n2 : Node, n2 = { n with tex := tp.1, path := tp.2, units := builtUnits n } := ⟨_, rfl⟩
    have hc2 : n2.cls = n.cls := by rw [hn2]
    refine ⟨n2, hc2, ?_, ?_⟩
    · have e0 : refreshOps tab.length n.cls = [.build tab.length] := by
        rcases hc : n.cls with p | p | ⟨o, k⟩ | ⟨o, k⟩ | ⟨gf, o, d⟩ | o | ⟨a, b, m⟩ | ⟨a, b, m, sh⟩ | o <;> try rfl
        exact absurd ⟨a, b, m, hc⟩ hcmp
      have e2 : lstep f h (.build tab.length) = (h.set tab.length n2, .ok ()) := by
        simp only [lstep, hn, hb1]
        rw [hn2]
      simp only [e0, lrun, e2]
    · have hshow := hb2 (h.set tab.length n2) n2 (hagree n2) (hat n2) hc2 (by rw [hn2]) (by rw [hn2]) (by
        rcases hc : n.cls with p | p | ⟨o, k⟩ | ⟨o, k⟩ | ⟨gf, o, d⟩ | o | ⟨a, b, m⟩ | ⟨a, b, m, sh⟩ | o
        case stored =>
          left
          rw [hc] at hm
          simp only [meaning, Except.ok.injEq] at hm
          rw [hn2]
          simp [keptUnits, builtUnits, hc, hm]
        case cmp => exact absurd ⟨a, b, m, hc⟩ hcmp
        all_goals exact Or.inr rfl)
      exact (H.congr (h' := h.set tab.length n2) (by simp; omega) (hagree n2)).extend (hat n2) (by rw [hc2]; exact hr) hshow

theorem lrun_append (f : Nat) (h h' : Heap) (xs ys : List LOp) (hx : lrun f h xs = .ok h') : lrun f h (xs ++ ys) = lrun f h' ys := by
  induction xs generalizing h with
  | nil =>
    simp only [lrun, Except.ok.injEq] at hx
    rw [hx, List.nil_append]
  | cons o os ih =>
    simp only [List.cons_append, lrun] at hx ⊢
    rcases hs : lstep f h o with ⟨h1, e | u⟩
    · rw [hs] at hx; cases hx
    · rw [hs] at hx
      exact ih h1 hx

theorem refreshAll_go (f : Nat) (cs : List Cls) : ∀ (h : Heap) (tab tab' : List Say), UpTo h tab → (settings h).drop tab.length = cs →
    sayFrom tab cs = .ok tab' → h.length ≤ f →
    ∃ h', lrun f h ((cs.zipIdx tab.length).map (fun ci => refreshOps ci.2 ci.1)).flatten = .ok h' ∧ settings h' = settings h ∧
      UpTo h' tab' ∧ tab'.length = h'.length := by
  induction cs with
  | nil =>
    intro h tab tab' H hd hs hf
    simp only [sayFrom, Except.ok.injEq] at hs
    subst hs
    refine ⟨h, rfl, rfl, H, ?_⟩
    have := congrArg List.length hd
    simp [settings] at this
    have := H.le
    omega
  | cons c cs ih =>
    intro h tab tab' H hd hs hf
    have hlen := congrArg List.length hd
    simp only [List.length_drop, List.length_cons, settings, List.length_map] at hlen
    have hl : tab.length < h.length := by omega
    obtain ⟨n, hn⟩ : ∃ n, h[tab.length]? = some n := ⟨_, List.getElem?_eq_getElem hl⟩
    have hc : n.cls = c := by
      have h0 : ((settings h).drop tab.length)[0]? = some c := by rw [hd]; rfl
      rw [List.getElem?_drop, Nat.add_zero, settings, List.getElem?_map, hn] at h0
      simpa using h0
    simp only [sayFrom, bind, Except.bind] at hs
    rcases hm : meaning tab c with e | s <;> simp only [hm] at hs
    · cases hs
    obtain ⟨n', hn', hrun, H'⟩ := H.refresh hn (by rw [hc]; exact hm) f (by omega)
    have hset : settings (h.set tab.length n') = settings h := by
      apply List.ext_getElem?
      intro i
      simp only [settings, List.getElem?_map]
      by_cases hi : tab.length = i
      · subst hi
        rw [List.getElem?_set_self hl, hn]
        simp [hn']
      · rw [List.getElem?_set_ne hi]
    obtain ⟨h', hr', hs', Hf, hfl⟩ := ih (h.set tab.length n') (tab ++ [s]) tab' H' (by
      rw [hset, List.length_append, List.length_singleton, ← List.drop_drop, hd]
      rfl) hs (by simpa using hf)
    refine ⟨h', ?_, by rw [hs', hset], Hf, hfl⟩
    simp only [List.zipIdx_cons, List.map_cons, List.flatten_cons]
    rw [hc] at hrun
    rw [lrun_append f h _ _ _ hrun]
    rw [List.length_append, List.length_singleton] at hr'
    exact hr'

/-! ## C215 -/

/-- C215: whatever was done to the labels before, if labels with these settings can be made at all, refreshing them in the order of their
creation (`set_constituents` for comparisons, then `build_label`) raises nothing and makes every label say what its settings and those
of its constituents mean. -/
theorem C215_refresh (f : Nat) (h : Heap) (tab : List Say) (hs : sayAll (settings h) = .ok tab) (hf : h.length ≤ f) :
    ∃ h', lrun f h (refreshAll (settings h)) = .ok h' ∧ settings h' = settings h ∧ Shows h' tab := by
  obtain ⟨h', h1, h2, h3, h4⟩ := refreshAll_go f (settings h) h [] tab ⟨by simp, by simp, by simp⟩ rfl hs hf
  exact ⟨h', h1, h2, h4, h3.ok⟩

/-- C215: newly made labels say what their settings mean, however nested. -/
theorem C215_new (f : Nat) (cs : List Cls) (tab : List Say) (hs : sayAll cs = .ok tab) (hf : cs.length ≤ f) :
    ∃ h, lrun f [] (cs.map .new) = .ok h ∧ settings h = cs ∧ Shows h tab := by
  suffices key : ∀ (cs : List Cls) (h : Heap) (tab tab' : List Say), UpTo h tab → tab.length = h.length → sayFrom tab cs = .ok tab' →
      h.length + cs.length ≤ f →
      ∃ h', lrun f h (cs.map .new) = .ok h' ∧ settings h' = settings h ++ cs ∧ UpTo h' tab' ∧ tab'.length = h'.length by
    obtain ⟨h', h1, h2, h3, h4⟩ := key cs [] [] tab ⟨by simp, by simp, by simp⟩ rfl hs (by simpa using hf)
    exact ⟨h', h1, by simpa [settings] using h2, h4, h3.ok⟩
  intro cs
  induction cs with
  | nil =>
    intro h tab tab' H hl hs _
    simp only [sayFrom, Except.ok.injEq] at hs
    subst hs
    exact ⟨h, rfl, by simp, H, hl⟩
  | cons c cs ih =>
    intro h tab tab' H hl hs hf
    simp only [List.length_cons] at hf
    simp only [sayFrom, bind, Except.bind] at hs
    rcases hm : meaning tab c with e | s <;> simp only [hm] at hs
    · cases hs
    obtain ⟨hr, hsu, hb⟩ := H.built hm f (by omega)
    obtain ⟨tp, hb1, hb2⟩ := hb ("", "")
    obtain ⟨n, hnd⟩ : ∃ n : Node, n = ⟨c, tp.1, tp.2, keptUnits c s⟩ := ⟨_, rfl⟩
    have hmk : mk f h c = .ok n := by
      simp only [mk, hsu, hb1, bind, Except.bind, hnd]
    have hag : ∀ i, i < tab.length → (h ++ [n])[i]? = h[i]? := fun i hi => List.getElem?_append_left (by omega)
    have hat : (h ++ [n])[tab.length]? = some n := by
      rw [hl, List.getElem?_append_right (le_refl _)]
      simp
    have hshow := hb2 (h ++ [n]) n hag hat (by rw [hnd]) (by rw [hnd]) (by rw [hnd]) (by left; rw [hnd])
    have H' := (H.congr (h' := h ++ [n]) (by simp; omega) hag).extend hat (by rw [hnd]; exact hr) hshow
    obtain ⟨h', h1, h2, h3, h4⟩ := ih (h ++ [n]) (tab ++ [s]) tab' H' (by simp [hl]) hs (by simp; omega)
    refine ⟨h', ?_, ?_, h3, h4⟩
    · simp only [List.map_cons, lrun, lstep, hmk]
      exact h1
    · rw [h2]
      simp [settings, hnd]

/-- C215 (violated): nothing but its own `build_label` changes the text or the path a label shows, if its class stores them: neither its
own setters nor anything done to its constituents. -/
theorem C215_stale (f : Nat) (h : Heap) (i : Nat) (n : Node) (hn : h[i]? = some n) (hlive : ∀ p, n.cls ≠ .live p) (o : LOp)
    (ho : ∀ j, o = .build j → j ≠ i) :
    texOf (lstep f h o).1 i = texOf h i ∧ pathOf (lstep f h o).1 i = pathOf h i := by
  have hlt : i < h.length := by
    by_contra hcon
    rw [List.getElem?_eq_none (by omega)] at hn
    cases hn
  have keep : ∀ n' : Node, (lstep f h o).1[i]? = some n' → n'.tex = n.tex → n'.path = n.path → (∀ p, n'.cls ≠ .live p) →
      ((∃ a, n'.cls = .freq a) ↔ ∃ a, n.cls = .freq a) →
      texOf (lstep f h o).1 i = texOf h i ∧ pathOf (lstep f h o).1 i = pathOf h i := by
    intro n' hn' ht hp hl hfr
    simp only [texOf, pathOf, hn, hn']
    rcases hc : n.cls with p | p | ⟨o, k⟩ | ⟨o, k⟩ | ⟨gf, o, d⟩ | o | ⟨a, b, m⟩ | ⟨a, b, m, sh⟩ | o <;>
      rcases hc' : n'.cls with p' | p' | ⟨o', k'⟩ | ⟨o', k'⟩ | ⟨gf', o', d'⟩ | o' | ⟨a', b', m'⟩ | ⟨a', b', m', sh'⟩ | o' <;>
      first
        | exact absurd hc (hlive _)
        | exact absurd hc' (hl _)
        | (exfalso; simp [hc, hc'] at hfr; done)
        | exact ⟨by simp [ht], by simp [hp]⟩
  have same : (lstep f h o).1[i]? = some n → texOf (lstep f h o).1 i = texOf h i ∧ pathOf (lstep f h o).1 i = pathOf h i :=
    fun hh => keep n hh rfl rfl hlive Iff.rfl
  rcases o with c | ⟨j, c⟩ | ⟨j, a, b⟩ | j
  · apply same
    simp only [lstep]
    rcases mk f h c with e | m
    · exact hn
    · rw [List.getElem?_append_left hlt]
      exact hn
  · rcases hj : h[j]? with _ | m
    · apply same; simp only [lstep, hj]; exact hn
    · rcases hw : withSettings m.cls c with _ | c'
      · apply same; simp only [lstep, hj, hw]; exact hn
      · rcases hso : setterOk c' with e | u
        · apply same; simp only [lstep, hj, hw, hso]; exact hn
        · by_cases hij : j = i
          · subst hij
            rw [hn] at hj
            cases hj
            have e1 : (lstep f h (.set j c)).1 = h.set j { n with cls := c' } := by simp only [lstep, hn, hw, hso]
            have hcls : (∀ p, c' ≠ .live p) ∧ ((∃ a, c' = .freq a) ↔ ∃ a, n.cls = .freq a) := by
              rcases hc : n.cls with p | p | ⟨o, k⟩ | ⟨o, k⟩ | ⟨gf, o, d⟩ | o | ⟨a, b, m⟩ | ⟨a, b, m, sh⟩ | o <;> rw [hc] at hw <;>
                rcases c with p' | p' | ⟨o', k'⟩ | ⟨o', k'⟩ | ⟨gf', o', d'⟩ | o' | ⟨a', b', m'⟩ | ⟨a', b', m', sh'⟩ | o' <;>
                simp only [withSettings, Option.some.injEq, reduceCtorEq] at hw <;>
                first
                  | exact absurd hc (hlive _)
                  | (subst hw; exact ⟨by simp, by simp⟩)
            exact keep { n with cls := c' } (by rw [e1, List.getElem?_set_self hlt]) rfl rfl hcls.1 hcls.2
          · apply same
            simp only [lstep, hj, hw, hso]
            rw [List.getElem?_set_ne hij]
            exact hn
  · rcases hj : h[j]? with _ | m
    · apply same; simp only [lstep, hj]; exact hn
    · rcases hc : m.cls with p | p | ⟨o, k⟩ | ⟨o, k⟩ | ⟨gf, o, d⟩ | o | ⟨a', b', nm⟩ | ⟨a', b', m', sh⟩ | o
      case cmp =>
        rcases hu : setConstituentsUnits f h a b with e | u
        · apply same; simp only [lstep, hj, hc, hu]; exact hn
        · by_cases hij : j = i
          · subst hij
            rw [hn] at hj
            cases hj
            have e1 : (lstep f h (.setParts j a b)).1 = h.set j { n with cls := .cmp a b nm, units := some u } := by
              simp only [lstep, hn, hc, hu]
            exact keep { n with cls := .cmp a b nm, units := some u } (by rw [e1, List.getElem?_set_self hlt]) rfl rfl (by simp) (by simp [hc])
          · apply same
            simp only [lstep, hj, hc, hu]
            rw [List.getElem?_set_ne hij]
            exact hn
      all_goals (apply same; simp only [lstep, hj, hc, hn])
  · have hij := ho j rfl
    apply same
    rcases hj : h[j]? with _ | m
    · simp only [lstep, hj]; exact hn
    · rcases hb : Labels.built f h m.cls (m.tex, m.path) with e | tp
      · simp only [lstep, hj, hb]; exact hn
      · simp only [lstep, hj, hb]
        rw [List.getElem?_set_ne hij]
        exact hn

/-- C215 (violated): an absolute value whose label is changed shows the old text with the new units; a comparison keeps units and text even
when the new ones would be refused, and its `build_label` renews the text but not the units. -/
theorem C215_mixed (f : Nat) (p p' q : Say) (u u' : String) (hp : p.units = some u) (hp' : p'.units = some u') (hq : q.units = some u)
    (hu : u' ≠ u) (hf : 4 ≤ f) :
    ∃ h, lrun f [] [.new (.live p), .new (.live q), .new (.abs (.obj 0)), .new (.cmp (.obj 0) (.obj 1) "subtract"), .set 0 (.live p')] = .ok h ∧
      texOf h 2 = .ok ("\\left|" ++ p.tex ++ "\\right|") ∧ unitsAt f h 2 = .ok u' ∧
      unitsAt f h 3 = .ok u ∧ (lstep f h (.setParts 3 (.obj 0) (.obj 1))).2 = .error .valueError ∧
      ∃ h', lstep f h (.build 3) = (h', .ok ()) ∧ unitsAt f h' 3 = .ok u ∧
        texOf h' 3 = (comparison (.label p'.tex p'.path none) (.label q.tex q.path none) "subtract").map Prod.fst ∧
        (meaning [p', q] (.cmp (.obj 0) (.obj 1) "subtract")) = .error .valueError := by
  obtain ⟨g, rfl⟩ : ∃ g, f = g + 4 := ⟨f - 4, by omega⟩
  have hpat : comparisonPattern "subtract" = .ok " - " := by decide +kernel
  generalize hS : "subtract" = S at hpat
  have e0 : ∀ h : Heap, mk (g + 4) h (.live p) = .ok ⟨.live p, "", "", none⟩ := fun _ => rfl
  have e1 : ∀ h : Heap, mk (g + 4) h (.live q) = .ok ⟨.live q, "", "", none⟩ := fun _ => rfl
  obtain ⟨A, hA⟩ : ∃ A : Node, A = ⟨.live p, "", "", none⟩ := ⟨_, rfl⟩
  obtain ⟨A', hA'⟩ : ∃ A : Node, A = ⟨.live p', "", "", none⟩ := ⟨_, rfl⟩
  obtain ⟨B, hB⟩ : ∃ B : Node, B = ⟨.live q, "", "", none⟩ := ⟨_, rfl⟩
  obtain ⟨D, hD⟩ : ∃ D : Node, D = ⟨.abs (.obj 0), "\\left|" ++ p.tex ++ "\\right|", "abs-" ++ p.path, none⟩ := ⟨_, rfl⟩
  obtain ⟨t, ht⟩ : ∃ t, t = "{" ++ p.tex ++ "}" ++ " - " ++ "{" ++ q.tex ++ "}" := ⟨_, rfl⟩
  obtain ⟨t', ht'⟩ : ∃ t, t = "{" ++ p'.tex ++ "}" ++ " - " ++ "{" ++ q.tex ++ "}" := ⟨_, rfl⟩
  obtain ⟨E, hE⟩ : ∃ E : Node, E = ⟨.cmp (.obj 0) (.obj 1) S, squeeze t.length t,
    comparisonPath (.label p.tex p.path none) (.label q.tex q.path none) S, some u⟩ := ⟨_, rfl⟩
  have uA : unitsAt (g + 4) [A, B, D] 0 = .ok u := by simp [unitsAt, hA, hp, unitsAttr]
  have uB : unitsAt (g + 4) [A, B, D] 1 = .ok u := by simp [unitsAt, hB, hq, unitsAttr]
  have uA' : ∀ k, unitsAt (k + 1) [A', B, D, E] 0 = .ok u' := by intro k; simp [unitsAt, hA', hp', unitsAttr]
  have uB' : ∀ k, unitsAt (k + 1) [A', B, D, E] 1 = .ok u := by intro k; simp [unitsAt, hB, hq, unitsAttr]
  have pA : partOf [A, B] (.obj 0) = .ok (.label p.tex p.path none) := by simp [partOf, texOf, pathOf, hA, bind, Except.bind]
  have pA3 : partOf [A, B, D] (.obj 0) = .ok (.label p.tex p.path none) := by simp [partOf, texOf, pathOf, hA, bind, Except.bind]
  have pB3 : partOf [A, B, D] (.obj 1) = .ok (.label q.tex q.path none) := by simp [partOf, texOf, pathOf, hB, bind, Except.bind]
  have pA4 : partOf [A', B, D, E] (.obj 0) = .ok (.label p'.tex p'.path none) := by simp [partOf, texOf, pathOf, hA', bind, Except.bind]
  have pB4 : partOf [A', B, D, E] (.obj 1) = .ok (.label q.tex q.path none) := by simp [partOf, texOf, pathOf, hB, bind, Except.bind]
  have m2 : mk (g + 4) [A, B] (.abs (.obj 0)) = .ok D := by
    rw [hD]
    simp only [mk, storedUnits, built, pA, bind, Except.bind, absoluteValue, Part.tex, Part.path]
  have m3 : mk (g + 4) [A, B, D] (.cmp (.obj 0) (.obj 1) S) = .ok E := by
    rw [hE, ht]
    simp only [mk, storedUnits, setConstituentsUnits, hasUnits, uA, uB, hpat, built, pA3, pB3, bind, Except.bind, Part.anyTex, ne_eq,
      not_true_eq_false, if_false]
  obtain ⟨E', hE'⟩ : ∃ E' : Node, E' = ⟨.cmp (.obj 0) (.obj 1) S, squeeze t'.length t',
    comparisonPath (.label p'.tex p'.path none) (.label q.tex q.path none) S, some u⟩ := ⟨_, rfl⟩
  refine ⟨[A', B, D, E], ?_, ?_, ?_, ?_, ?_, [A', B, D, E'], ?_, ?_, ?_, ?_⟩
  · have s0 : lstep (g + 4) [] (.new (.live p)) = ([A], .ok ()) := by simp only [lstep, e0, hA, List.nil_append]
    have s1 : lstep (g + 4) [A] (.new (.live q)) = ([A, B], .ok ()) := by simp only [lstep, e1, hB, List.cons_append, List.nil_append]
    have s2 : lstep (g + 4) [A, B] (.new (.abs (.obj 0))) = ([A, B, D], .ok ()) := by
      simp only [lstep, m2, List.cons_append, List.nil_append]
    have s3 : lstep (g + 4) [A, B, D] (.new (.cmp (.obj 0) (.obj 1) S)) = ([A, B, D, E], .ok ()) := by
      simp only [lstep, m3, List.cons_append, List.nil_append]
    have s4 : lstep (g + 4) [A, B, D, E] (.set 0 (.live p')) = ([A', B, D, E], .ok ()) := by
      simp [lstep, hA, hA', withSettings, setterOk]
    simp only [lrun, s0, s1, s2, s3, s4]
  · simp [texOf, hD]
  · have h2 : ([A', B, D, E] : Heap)[2]? = some D := rfl
    have hc : D.cls = .abs (.obj 0) := by rw [hD]
    rw [unitsAt]
    simp only [h2, hc]
    exact uA' (g + 2)
  · simp [unitsAt, hE, unitsAttr]
  · have h3 : ([A', B, D, E] : Heap)[3]? = some E := rfl
    have hc : E.cls = .cmp (.obj 0) (.obj 1) S := by rw [hE]
    simp only [lstep, h3, hc, setConstituentsUnits, hasUnits, uA' (g + 3), uB' (g + 3), bind, Except.bind, ne_eq, hu, not_false_eq_true,
      if_true]
  · have h3 : ([A', B, D, E] : Heap)[3]? = some E := rfl
    have hc : E.cls = .cmp (.obj 0) (.obj 1) S := by rw [hE]
    have hb : builtUnits E = some u := by rw [hE]; rfl
    rw [hE', ht']
    simp only [lstep, h3, hc, hb, built, pA4, pB4, hpat, bind, Except.bind, Part.anyTex, List.set_cons_succ, List.set_cons_zero]
  · simp [unitsAt, hE', unitsAttr]
  · rw [hE', ht']
    simp only [comparison, comparisonUnits, hpat, bind, Except.bind, Part.anyTex, Except.map, texOf, List.getElem?_cons_succ,
      List.getElem?_cons_zero]
  · simp only [meaning, refSay, List.getElem?_cons_succ, List.getElem?_cons_zero, bind, Except.bind, comparison, comparisonUnits, hp', hq,
      ne_eq, hu, not_false_eq_true, if_true]

/-- C215: an accepted setter stores what it was given and touches no other label; the constituents of a comparison are changed only by
`set_constituents`, its function only by `set_function`. -/
theorem C215_setters (f : Nat) (h h' : Heap) (i : Nat) (n : Node) (hn : h[i]? = some n) :
    (∀ c, lstep f h (.set i c) = (h', .ok ()) → (∀ j, j ≠ i → h'[j]? = h[j]?) ∧
      ((∀ a b m, c ≠ .cmp a b m) → ∃ n', h'[i]? = some n' ∧ n'.cls = c) ∧
      (∀ a b m, c = .cmp a b m → ∃ a₀ b₀ m₀ n', n.cls = .cmp a₀ b₀ m₀ ∧ h'[i]? = some n' ∧ n'.cls = .cmp a₀ b₀ m)) ∧
    (∀ a b, lstep f h (.setParts i a b) = (h', .ok ()) → (∀ j, j ≠ i → h'[j]? = h[j]?) ∧
      ∃ a₀ b₀ m₀ n', n.cls = .cmp a₀ b₀ m₀ ∧ h'[i]? = some n' ∧ n'.cls = .cmp a b m₀) := by
  have hlt : i < h.length := by
    by_contra hcon
    rw [List.getElem?_eq_none (by omega)] at hn
    cases hn
  refine ⟨fun c hc => ?_, fun a b hc => ?_⟩
  · simp only [lstep, hn] at hc
    rcases hw : withSettings n.cls c with _ | c'
    · rw [hw] at hc; cases hc
    · rw [hw] at hc
      simp only [] at hc
      rcases hs : setterOk c' with e | u
      · rw [hs] at hc; cases hc
      · rw [hs] at hc
        simp only [Prod.mk.injEq, and_true] at hc
        subst hc
        refine ⟨fun j hj => List.getElem?_set_ne (Ne.symm hj), fun hne => ?_, ?_⟩
        · refine ⟨_, List.getElem?_set_self hlt, ?_⟩
          simp only []
          rcases hcl : n.cls with p | p | ⟨o, k⟩ | ⟨o, k⟩ | ⟨gf, o, d⟩ | o | ⟨a, b, m⟩ | ⟨a, b, m, sh⟩ | o <;> rw [hcl] at hw <;>
            rcases c with p' | p' | ⟨o', k'⟩ | ⟨o', k'⟩ | ⟨gf', o', d'⟩ | o' | ⟨a', b', m'⟩ | ⟨a', b', m', sh'⟩ | o' <;>
            simp only [withSettings, Option.some.injEq, reduceCtorEq] at hw <;>
            first
              | exact absurd rfl (hne _ _ _)
              | exact hw.symm
        · rintro a b m rfl
          rcases hcl : n.cls with p | p | ⟨o, k⟩ | ⟨o, k⟩ | ⟨gf, o, d⟩ | o | ⟨a₀, b₀, m₀⟩ | ⟨a₀, b₀, m₀, sh⟩ | o <;> rw [hcl] at hw <;>
            simp only [withSettings, Option.some.injEq, reduceCtorEq] at hw
          exact ⟨a₀, b₀, m₀, _, rfl, List.getElem?_set_self hlt, hw.symm⟩
  · simp only [lstep, hn] at hc
    rcases hcl : n.cls with p | p | ⟨o, k⟩ | ⟨o, k⟩ | ⟨gf, o, d⟩ | o | ⟨a₀, b₀, m₀⟩ | ⟨a₀, b₀, m₀, sh⟩ | o <;> rw [hcl] at hc <;>
      simp only [Prod.mk.injEq, reduceCtorEq, and_false] at hc
    rcases hu : setConstituentsUnits f h a b with e | u
    · rw [hu] at hc; simp at hc
    · rw [hu] at hc
      simp only [Prod.mk.injEq, and_true] at hc
      subst hc
      exact ⟨fun j hj => List.getElem?_set_ne (Ne.symm hj), a₀, b₀, m₀, _, rfl, List.getElem?_set_self hlt, rfl⟩

/-- C215 (violated): a label may be made its own constituent; its units then never come (`RecursionError`, whatever the limit), although
text and path are shown as before. -/
theorem C215_cycle (f : Nat) (h : Heap) (i : Nat) (n : Node) (o : Ref) (hn : h[i]? = some n) (hc : n.cls = .abs o) :
    ∃ h', lstep f h (.set i (.abs (.obj i))) = (h', .ok ()) ∧ texOf h' i = texOf h i ∧ pathOf h' i = pathOf h i ∧
      ∀ g, unitsAt g h' i = .error .runtimeError := by
  have hl : i < h.length := by
    by_contra hcon
    rw [List.getElem?_eq_none (by omega)] at hn
    cases hn
  have hat : (h.set i { n with cls := .abs (.obj i) })[i]? = some { n with cls := .abs (.obj i) } := by
    rw [List.getElem?_set_self hl]
  refine ⟨h.set i { n with cls := .abs (.obj i) }, ?_, ?_, ?_, ?_⟩
  · simp only [lstep, hn, hc, withSettings, setterOk]
  · simp only [texOf, hat, hn, hc]
  · simp only [pathOf, hat, hn, hc]
  · intro g
    induction g with
    | zero => rfl
    | succ g ih =>
      simp only [unitsAt, hat]
      exact ih

/-- C215: the path of a frequency names its units, or `UNK` when they contain two question marks in a row. -/
theorem C215_frequency_path (u : String) :
    (['?', '?'] <:+: u.toList → freqPath (frequencyUnits u) = "frequency_of_UNK") ∧
    (¬ ['?', '?'] <:+: u.toList → freqPath (frequencyUnits u) = "frequency_of_(" ++ u ++ ")^-1") := by
  have hneg : toString (-1 : Int) = "-1" := by decide +kernel
  have key : ['?', '?'] <:+: (frequencyUnits u).toList ↔ ['?', '?'] <:+: u.toList := by
    simp only [frequencyUnits, hneg, String.toList_append]
    constructor
    · intro h
      have h1 : ['?', '?'] <:+: '(' :: (u.toList ++ [')'] ++ ['^'] ++ ['-'] ++ ['1']) := by simpa using h
      rw [List.infix_cons_iff] at h1
      rcases h1 with h1 | h1
      · simp [List.cons_prefix_cons] at h1
      have strip : ∀ (l : List Char) (c : Char), c ≠ '?' → ['?', '?'] <:+: l ++ [c] → ['?', '?'] <:+: l := by
        intro l c hc hh
        rw [List.infix_concat_iff] at hh
        rcases hh with ⟨a, ha⟩ | hh
        · have := congrArg List.getLast? ha
          simp at this
          exact absurd this.symm hc
        · exact hh
      exact strip _ ')' (by decide) (strip _ '^' (by decide) (strip _ '-' (by decide) (strip _ '1' (by decide) h1)))
    · rintro ⟨a, b, hab⟩
      refine ⟨"(".toList ++ a, b ++ ")^".toList ++ "-1".toList, ?_⟩
      rw [← hab]
      simp
  constructor
  · intro h
    simp only [freqPath, key.2 h, if_true]
    decide +kernel
  · intro h
    unfold freqPath
    rw [if_neg (fun hh => h (key.1 hh)), frequencyUnits, hneg]
    apply String.ext
    simp [String.toList_append]

/-! ## Non-vacuity -/

/-- a path with unknown units, and one with known ones -/
example : freqPath (frequencyUnits "???") = "frequency_of_UNK" ∧ freqPath (frequencyUnits "10 s") = "frequency_of_(10 s)^-1" := by
  constructor
  · exact (C215_frequency_path _).1 (by decide +kernel)
  · exact (C215_frequency_path _).2 (by decide +kernel)

/-- five nested labels: `|log(p)| - |log(p)|`, a probability of it, all refreshed after the innermost changed -/
def demoCls : List Cls := [.live ⟨"p", "p", some "nPa"⟩, .fcn "log" (.obj 0) false, .abs (.obj 1), .cmp (.obj 2) (.obj 2) "add",
  .prob (.obj 3) "> 1"]

example : ∃ tab, sayAll demoCls = .ok tab := by
  have : (sayAll demoCls).isOk = true := by decide +kernel
  rcases h : sayAll demoCls with e | t
  · rw [h] at this; cases this
  · exact ⟨t, rfl⟩

end Labels
end SW
