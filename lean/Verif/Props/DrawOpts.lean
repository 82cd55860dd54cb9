import Verif.DrawOpts

/-!
# C262, C263: options of drawn curves
-/

namespace SW
namespace Draw

/-! ### Specification -/

/-- a dictionary: keys are distinct; and none of its keys is an abbreviation -/
def Plain (canon : String → String) (d : Kw) : Prop := (d.map Prod.fst).Nodup ∧ ∀ e ∈ d, canon e.1 = e.1

/-- a band is drawn -/
def Ev.IsBand : Ev → Prop
  | .band _ _ _ _ => True
  | _ => False

/-- a dictionary without some keys -/
def without (ks : List String) (d : Kw) : Kw := d.filter fun e => decide (e.1 ∉ ks)

/-! ### Lemmas -/

theorem lookup_filter (p : String → Bool) (d : Kw) (k : String) : (d.filter fun e => p e.1).lookup k = if p k then d.lookup k else none := by
  induction d with
  | nil => simp
  | cons e d ih =>
    obtain ⟨a, v⟩ := e
    by_cases h : p a = true
    · rw [List.filter_cons_of_pos (by simpa using h), List.lookup_cons, List.lookup_cons]
      by_cases hk : k = a
      · subst hk; simp [h]
      · have : (k == a) = false := by simpa using hk
        rw [this]; exact ih
    · rw [List.filter_cons_of_neg (by simpa using h), ih, List.lookup_cons]
      by_cases hk : k = a
      · subst hk; simp [h]
      · have : (k == a) = false := by simpa using hk
        rw [this]

theorem lookup_without (ks : List String) (d : Kw) (k : String) : (without ks d).lookup k = if k ∈ ks then none else d.lookup k := by
  have := lookup_filter (fun a => decide (a ∉ ks)) d k
  unfold without
  rw [this]
  by_cases h : k ∈ ks <;> simp [h]

theorem pop_eq (k : String) (v : Val) (d : Kw) : pop k v d = ((d.lookup k).getD v, without [k] d) := by
  unfold pop without
  congr 1
  apply List.filter_congr
  intro e _
  simp

theorem without_without (a b : List String) (d : Kw) : without a (without b d) = without (b ++ a) d := by
  unfold without
  rw [List.filter_filter]
  apply List.filter_congr
  intro e _
  by_cases h1 : e.1 ∈ a <;> by_cases h2 : e.1 ∈ b <;> simp [h1, h2]

theorem plain_without {canon : String → String} {d : Kw} (ks : List String) (h : Plain canon d) : Plain canon (without ks d) :=
  ⟨h.1.sublist (List.Sublist.map _ List.filter_sublist), fun e he => h.2 e (List.mem_filter.mp he).1⟩

theorem canon_plain {canon : String → String} {d : Kw} (h : Plain canon d) : canonKw canon d = .ok d := by
  unfold canonKw
  have e : (d.map fun e => canon e.1) = d.map Prod.fst := List.map_congr_left fun e he => h.2 e he
  rw [if_pos (by rw [e]; exact h.1)]
  congr 1
  conv_rhs => rw [← List.map_id d]
  exact List.map_congr_left fun e he => Prod.ext (h.2 e he) rfl

theorem call_plain {canon : String → String} {named rest : Kw} (hn : Plain canon named) (hr : Plain canon rest)
    (hd : ∀ k ∈ named.map Prod.fst, k ∉ rest.map Prod.fst) : call canon named rest = .ok (named ++ rest) := by
  unfold call
  rw [if_neg (by push Not; exact hd)]
  apply canon_plain
  refine ⟨?_, fun e he => ?_⟩
  · rw [List.map_append, List.nodup_append]
    exact ⟨hn.1, hr.1, fun a ha b hb hab => hd a ha (hab ▸ hb)⟩
  · rcases List.mem_append.mp he with h | h
    · exact hn.2 e h
    · exact hr.2 e h

theorem keys_without (ks : List String) (d : Kw) : ∀ k ∈ ks, k ∉ (without ks d).map Prod.fst := by
  intro k hk hc
  obtain ⟨e, he, rfl⟩ := List.mem_map.mp hc
  exact absurd hk (of_decide_eq_true (List.mem_filter.mp he).2)

/-- the call with some named options and the caller's dictionary freed of them -/
theorem call_without {canon : String → String} (named d : Kw) (ks : List String) (hn : Plain canon named) (hd : Plain canon d)
    (hk : ∀ e ∈ named, e.1 ∈ ks) : call canon named (without ks d) = .ok (named ++ without ks d) := by
  refine call_plain hn (plain_without ks hd) fun k h => ?_
  obtain ⟨e, he, rfl⟩ := List.mem_map.mp h
  exact keys_without ks d _ (hk e he)

theorem lookup_append (a b : Kw) (k : String) : (a ++ b).lookup k = (a.lookup k).or (b.lookup k) := by
  induction a with
  | nil => rfl
  | cons e a ih =>
    obtain ⟨c, v⟩ := e
    rw [List.cons_append, List.lookup_cons, List.lookup_cons, ih]
    split <;> rfl

theorem call_err (canon : String → String) (n r : Kw) (e : PyErr) (h : call canon n r = .error e) : e = .typeError := by
  unfold call canonKw at h
  split at h
  · cases h; rfl
  · split at h
    · cases h
    · cases h; rfl

/-! ### C262 -/

/-- the bounds of the window -/
noncomputable def lower (y d : List Fl) : List Fl := List.zipWith (fun a b => a - b) y d
noncomputable def upper (y d : List Fl) : List Fl := List.zipWith (fun a b => a + b) y d

/-- the window of a histogram with uncertainties, not transposed: a line, its edges if asked for, and the band value ∓ uncertainty; the line has the caller's options, the
band its own options or else those of the line -/
theorem C262_window (edges : Bool) (x y d : List Fl) (kw wkw : Kw) (hk : Plain lineAlias kw) (hw : Plain lineAlias wkw) (hw' : Plain collAlias wkw) :
    ∃ k ke kb, makePlot ⟨false, true, edges⟩ x y (some d) kw wkw =
        ⟨[.line x y k] ++ (if edges then [.line x (upper y d) ke, .line x (lower y d) ke] else []) ++ [.band x (lower y d) (upper y d) kb], none,
          without ["alpha", "color", "linestyle"] wkw⟩ ∧
      k.lookup "color" = some ((kw.lookup "color").getD none) ∧ k.lookup "linestyle" = some ((kw.lookup "linestyle").getD (some "-")) ∧
      k.lookup "label" = some ((kw.lookup "label").getD none) ∧ k.lookup "drawstyle" = none ∧
      (∀ o, o ∉ ["color", "linestyle", "label", "drawstyle"] → k.lookup o = kw.lookup o) ∧
      kb.lookup "color" = some ((wkw.lookup "color").getD ((kw.lookup "color").getD none)) ∧
      kb.lookup "linestyle" = some ((wkw.lookup "linestyle").getD ((kw.lookup "linestyle").getD (some "-"))) ∧
      kb.lookup "alpha" = some ((wkw.lookup "alpha").getD (some "0.15")) ∧
      (∀ o, o ∉ ["color", "linestyle", "alpha"] → kb.lookup o = wkw.lookup o) ∧
      (∀ o, o ≠ "alpha" → ke.lookup o = kb.lookup o) ∧ ke.lookup "alpha" = none := by
  have kd := plain_without ["drawstyle"] hk
  have lk : ∀ o, o ≠ "drawstyle" → (without ["drawstyle"] kw).lookup o = kw.lookup o := by
    intro o ho; rw [lookup_without, if_neg (by simpa using ho)]
  have key : makePlot ⟨false, true, edges⟩ x y (some d) kw wkw =
      drawWindow ⟨false, true, edges⟩ x y (some d) (without ["drawstyle"] kw) wkw := by
    simp only [makePlot, pop_eq, Bool.false_eq_true, if_false, if_true, canon_plain kd]
  rw [key]
  simp only [drawWindow, pop_eq, without_without, List.cons_append, List.nil_append]
  have w1 : (without ["alpha"] wkw).lookup "color" = wkw.lookup "color" := by rw [lookup_without]; simp
  have w2 : (without ["alpha", "color"] wkw).lookup "linestyle" = wkw.lookup "linestyle" := by rw [lookup_without]; simp
  have l1 : (without ["drawstyle"] kw).lookup "color" = kw.lookup "color" := lk _ (by decide)
  have l2 : (without ["drawstyle", "color"] kw).lookup "linestyle" = kw.lookup "linestyle" := by rw [lookup_without]; simp
  have l3 : (without ["drawstyle", "color", "linestyle"] kw).lookup "label" = kw.lookup "label" := by rw [lookup_without]; simp
  rw [w1, w2, l1, l2, l3]
  obtain ⟨c, hc⟩ : ∃ c, c = (kw.lookup "color").getD none := ⟨_, rfl⟩
  obtain ⟨s, hs⟩ : ∃ s, s = (kw.lookup "linestyle").getD (some "-") := ⟨_, rfl⟩
  obtain ⟨la, hla⟩ : ∃ l, l = (kw.lookup "label").getD none := ⟨_, rfl⟩
  obtain ⟨wc, hwc⟩ : ∃ w, w = (wkw.lookup "color").getD c := ⟨_, rfl⟩
  obtain ⟨ws, hws⟩ : ∃ w, w = (wkw.lookup "linestyle").getD s := ⟨_, rfl⟩
  obtain ⟨al, hal⟩ : ∃ a, a = (wkw.lookup "alpha").getD (some "0.15") := ⟨_, rfl⟩
  simp only [← hc, ← hs, ← hla, ← hwc, ← hws, ← hal]
  have c1 : call lineAlias [("color", c), ("linestyle", s), ("label", la)] (without ["drawstyle", "color", "linestyle", "label"] kw) =
      .ok ([("color", c), ("linestyle", s), ("label", la)] ++ without ["drawstyle", "color", "linestyle", "label"] kw) := by
    refine call_without _ _ _ ⟨by simp, ?_⟩ hk ?_
    · intro e he; simp at he; rcases he with rfl | rfl | rfl <;> simp [lineAlias]
    · intro e he; simp at he; rcases he with rfl | rfl | rfl <;> simp
  have c2 : call lineAlias [("color", wc), ("linestyle", ws)] (without ["alpha", "color", "linestyle"] wkw) =
      .ok ([("color", wc), ("linestyle", ws)] ++ without ["alpha", "color", "linestyle"] wkw) := by
    refine call_without _ _ _ ⟨by simp, ?_⟩ hw ?_
    · intro e he; simp at he; rcases he with rfl | rfl <;> simp [lineAlias]
    · intro e he; simp at he; rcases he with rfl | rfl <;> simp
  have c3 : call collAlias [("color", wc), ("linestyle", ws), ("alpha", al)] (without ["alpha", "color", "linestyle"] wkw) =
      .ok ([("color", wc), ("linestyle", ws), ("alpha", al)] ++ without ["alpha", "color", "linestyle"] wkw) := by
    refine call_without _ _ _ ⟨by simp, ?_⟩ hw' ?_
    · intro e he; simp at he; rcases he with rfl | rfl | rfl <;> simp [collAlias]
    · intro e he; simp at he; rcases he with rfl | rfl | rfl <;> simp
  refine ⟨[("color", c), ("linestyle", s), ("label", la)] ++ without ["drawstyle", "color", "linestyle", "label"] kw,
    [("color", wc), ("linestyle", ws)] ++ without ["alpha", "color", "linestyle"] wkw,
    [("color", wc), ("linestyle", ws), ("alpha", al)] ++ without ["alpha", "color", "linestyle"] wkw, ?_, ?_⟩
  · cases edges
    · simp only [drawEdges, c1, c3, Out.draw, minus, plus, Bool.false_eq_true, if_false, id, List.nil_append, List.append_nil, lower, upper]
      rfl
    · simp only [drawEdges, c1, c2, c3, Out.draw, minus, plus, if_true, id, List.nil_append, lower, upper, List.append_assoc, List.cons_append]
  · simp only [lookup_append, lookup_without]
    refine ⟨by simp [List.lookup], by simp [List.lookup], by simp [List.lookup], by simp [List.lookup], ?_, by simp [List.lookup, hwc], by simp [List.lookup, hws],
      by simp [List.lookup], ?_, ?_, by simp [List.lookup]⟩
    · intro o ho
      simp only [List.mem_cons, List.not_mem_nil, or_false, not_or] at ho
      have e1 : (o == "color") = false := by simpa using ho.1
      have e2 : (o == "linestyle") = false := by simpa using ho.2.1
      have e3 : (o == "label") = false := by simpa using ho.2.2.1
      simp [List.lookup, e1, e2, e3, ho]
    · intro o ho
      simp only [List.mem_cons, List.not_mem_nil, or_false, not_or] at ho
      have e1 : (o == "color") = false := by simpa using ho.1
      have e2 : (o == "linestyle") = false := by simpa using ho.2.1
      have e3 : (o == "alpha") = false := by simpa using ho.2.2
      simp [List.lookup, e1, e2, e3, ho]
    · intro o ho
      have e3 : (o == "alpha") = false := by simpa using ho
      simp [List.lookup, e3]

theorem draw_err (o : Out) (canon : String → String) (n r : Kw) (mk : Kw → Ev) (next : Out → Out) (hmk : ∀ k, ¬ (mk k).IsBand)
    (h : ∀ e ∈ o.evs, ¬ e.IsBand)
    (hn : ∀ o', (∀ e ∈ o'.evs, ¬ e.IsBand) → (next o').err = some .typeError ∧ ∀ e ∈ (next o').evs, ¬ e.IsBand) :
    (o.draw (call canon n r) mk next).err = some .typeError ∧ ∀ e ∈ (o.draw (call canon n r) mk next).evs, ¬ e.IsBand := by
  rcases hc : call canon n r with e | k
  · cases call_err canon n r e hc
    exact ⟨rfl, h⟩
  · refine hn _ fun e he => ?_
    rcases List.mem_append.mp he with h' | h'
    · exact h e h'
    · rw [List.mem_singleton.mp h']; exact hmk k

/-- violated: a window of a transposed histogram, or without uncertainties, is a TypeError and no band is drawn -/
theorem C262_no_window (edges transpose : Bool) (x y : List Fl) (dy : Option (List Fl)) (kw wkw : Kw) (h : transpose = true ∨ dy = none) :
    (makePlot ⟨transpose, true, edges⟩ x y dy kw wkw).err = some .typeError ∧
    ∀ e ∈ (makePlot ⟨transpose, true, edges⟩ x y dy kw wkw).evs, ¬ e.IsBand := by
  have win : ∀ op x y kw wkw, (drawWindow op x y none kw wkw).err = some .typeError ∧ ∀ e ∈ (drawWindow op x y none kw wkw).evs, ¬ e.IsBand := by
    intro op x y kw wkw
    simp only [drawWindow, minus]
    apply draw_err
    · intro k; simp [Ev.IsBand]
    · simp
    · intro o ho
      simp only [drawEdges, plus]
      split
      · exact ⟨rfl, ho⟩
      · exact ⟨rfl, ho⟩
  have e : (if transpose = true then (dy, none) else ((none : Option (List Fl)), dy)).2 = none := by
    rcases h with h | h
    · rw [if_pos h]
    · rw [h]; split <;> rfl
  simp only [makePlot]
  rcases hc : canonKw lineAlias (pop "drawstyle" (some "steps-mid") kw).2 with er | k
  · have : er = .typeError := by
      unfold canonKw at hc
      split at hc
      · cases hc
      · cases hc; rfl
    subst this
    exact ⟨rfl, by simp⟩
  · simp only [if_true]
    rw [e]
    exact win _ _ _ _ _

/-- violated: with a window the keyword `drawstyle` has no effect -/
theorem C262_drawstyle (edges transpose : Bool) (x y : List Fl) (dy : Option (List Fl)) (kw wkw : Kw) :
    makePlot ⟨transpose, true, edges⟩ x y dy kw wkw = makePlot ⟨transpose, true, edges⟩ x y dy (without ["drawstyle"] kw) wkw := by
  simp only [makePlot, pop_eq, without_without]
  have : without ["drawstyle", "drawstyle"] kw = without ["drawstyle"] kw := by unfold without; exact List.filter_congr fun e _ => by simp
  simp only [List.cons_append, List.nil_append, this]
  rfl

/-- violated: a second plot with the same `window_kwargs` dictionary loses colour, line style and transparency of its window -/
theorem C262_consumed (edges edges' : Bool) (x y d x' y' d' : List Fl) (kw kw' wkw : Kw) (hk : Plain lineAlias kw) (hk' : Plain lineAlias kw')
    (hw : Plain lineAlias wkw) (hw' : Plain collAlias wkw) :
    ∃ evs kb, makePlot ⟨false, true, edges'⟩ x' y' (some d') kw' (makePlot ⟨false, true, edges⟩ x y (some d) kw wkw).wkw =
        ⟨evs ++ [.band x' (lower y' d') (upper y' d') kb], none, without ["alpha", "color", "linestyle"] wkw⟩ ∧
      kb.lookup "color" = some ((kw'.lookup "color").getD none) ∧ kb.lookup "linestyle" = some ((kw'.lookup "linestyle").getD (some "-")) ∧
      kb.lookup "alpha" = some (some "0.15") := by
  obtain ⟨k, ke, kb, h, -⟩ := C262_window edges x y d kw wkw hk hw hw'
  rw [h]
  obtain ⟨k, ke, kb, h, -, -, -, -, -, h1, h2, h3, -⟩ := C262_window edges' x' y' d' kw' (without ["alpha", "color", "linestyle"] wkw) hk'
    (plain_without _ hw) (plain_without _ hw')
  rw [without_without] at h
  have ww : without (["alpha", "color", "linestyle"] ++ ["alpha", "color", "linestyle"]) wkw = without ["alpha", "color", "linestyle"] wkw := by
    unfold without
    refine List.filter_congr fun e _ => decide_eq_decide.mpr ?_
    rw [List.mem_append, or_self]
  rw [ww] at h
  refine ⟨_, kb, h, ?_, ?_, ?_⟩
  · rw [h1, lookup_without]; simp
  · rw [h2, lookup_without]; simp
  · rw [h3, lookup_without]; simp

/-- without a window: one curve with error bars, vertical or, when transposed, horizontal; drawn in steps unless told otherwise; options handed on; the window's dictionary
untouched -/
theorem C262_errorbar (edges transpose : Bool) (x y : List Fl) (dy : Option (List Fl)) (kw wkw : Kw) (hk : Plain lineAlias kw) :
    ∃ k, makePlot ⟨transpose, false, edges⟩ x y dy kw wkw =
        ⟨[if transpose then .errorbar y x dy none k else .errorbar x y none dy k], none, wkw⟩ ∧
      k.lookup "drawstyle" = some ((kw.lookup "drawstyle").getD (some "steps-mid")) ∧ ∀ o, o ≠ "drawstyle" → k.lookup o = kw.lookup o := by
  have kd := plain_without ["drawstyle"] hk
  refine ⟨[("drawstyle", (kw.lookup "drawstyle").getD (some "steps-mid"))] ++ without ["drawstyle"] kw, ?_, ?_, ?_⟩
  · have c : call lineAlias [("drawstyle", (kw.lookup "drawstyle").getD (some "steps-mid"))] (without ["drawstyle"] kw) =
        .ok ([("drawstyle", (kw.lookup "drawstyle").getD (some "steps-mid"))] ++ without ["drawstyle"] kw) := by
      refine call_without _ _ _ ⟨by simp, ?_⟩ hk ?_
      · intro e he; simp at he; subst he; simp [lineAlias]
      · intro e he; simp at he; subst he; simp
    simp only [makePlot, pop_eq, canon_plain kd, Bool.false_eq_true, if_false, c, Out.draw, List.nil_append, id]
    cases transpose <;> rfl
  · simp [List.lookup]
  · intro o ho
    have e : (o == "drawstyle") = false := by simpa using ho
    rw [lookup_append, lookup_without]
    simp [List.lookup, e, ho]

/-- violated: the abbreviation `ds` is a TypeError there, and nothing is drawn -/
theorem C262_abbreviation (edges transpose : Bool) (x y : List Fl) (dy : Option (List Fl)) (v : Val) (kw wkw : Kw) (h : ("ds", v) ∈ kw) :
    makePlot ⟨transpose, false, edges⟩ x y dy kw wkw = ⟨[], some .typeError, wkw⟩ := by
  simp only [makePlot, pop_eq]
  have hm : ("ds", v) ∈ without ["drawstyle"] kw := List.mem_filter.mpr ⟨h, by simp⟩
  rcases hc : canonKw lineAlias (without ["drawstyle"] kw) with er | k
  · have : er = .typeError := by
      unfold canonKw at hc
      split at hc
      · cases hc
      · cases hc; rfl
    subst this; rfl
  · have hk : ("drawstyle", v) ∈ k := by
      unfold canonKw at hc
      split at hc
      · cases hc
        exact List.mem_map.mpr ⟨_, hm, by simp [lineAlias]⟩
      · cases hc
    have : call lineAlias [("drawstyle", (kw.lookup "drawstyle").getD (some "steps-mid"))] k = .error .typeError := by
      unfold call
      rw [if_pos ⟨"drawstyle", by simp, List.mem_map.mpr ⟨_, hk, rfl⟩⟩]
    simp only [Bool.false_eq_true, if_false]
    rw [this]
    rfl

/-! ### C263 -/

/-- the 1-D parameters with a window: a line with the caller's options (cyan, "1D Fits" by default) and the band parameter ∓ uncertainty in its own or the line's colour; the
dictionary of the window is never changed -/
theorem C263_window (x y w : List Fl) (kw wkw : Kw) (hk : Plain lineAlias kw) (hw : Plain collAlias wkw) :
    ∃ k kb, plotPopt true false x y w kw wkw = ⟨[.line x y k, .band x (lower y w) (upper y w) kb], none, wkw⟩ ∧
      k.lookup "color" = some ((kw.lookup "color").getD (some "cyan")) ∧ k.lookup "label" = some ((kw.lookup "label").getD (some "1D Fits")) ∧
      (∀ o, o ∉ ["color", "label"] → k.lookup o = kw.lookup o) ∧
      kb.lookup "color" = some ((wkw.lookup "color").getD ((kw.lookup "color").getD (some "cyan"))) ∧
      kb.lookup "alpha" = some ((wkw.lookup "alpha").getD (some "0.15")) ∧ ∀ o, o ∉ ["color", "alpha"] → kb.lookup o = wkw.lookup o := by
  have hls : kw.lookup "ls" = none := by
    rw [List.lookup_eq_none_iff]
    intro e he
    have hn : e.1 ≠ "ls" := fun h => by have := hk.2 e he; rw [h] at this; simp [lineAlias] at this
    simpa using hn.symm
  simp only [plotPopt, canon_plain hk, pop_eq, without_without, List.cons_append, List.nil_append, if_true, Bool.false_eq_true, if_false, canon_plain hw]
  have l3 : (without ["color", "ls"] kw).lookup "label" = kw.lookup "label" := by rw [lookup_without]; simp
  have w1 : (without ["color"] wkw).lookup "alpha" = wkw.lookup "alpha" := by rw [lookup_without]; simp
  rw [l3, w1]
  obtain ⟨c, hc⟩ : ∃ c, c = (kw.lookup "color").getD (some "cyan") := ⟨_, rfl⟩
  obtain ⟨la, hla⟩ : ∃ l, l = (kw.lookup "label").getD (some "1D Fits") := ⟨_, rfl⟩
  obtain ⟨wc, hwc⟩ : ∃ w, w = (wkw.lookup "color").getD c := ⟨_, rfl⟩
  obtain ⟨al, hal⟩ : ∃ a, a = (wkw.lookup "alpha").getD (some "0.15") := ⟨_, rfl⟩
  simp only [← hc, ← hla, ← hwc, ← hal]
  have c1 : call lineAlias [("label", la), ("color", c)] (without ["color", "ls", "label"] kw) =
      .ok ([("label", la), ("color", c)] ++ without ["color", "ls", "label"] kw) := by
    refine call_without _ _ _ ⟨by simp, ?_⟩ hk ?_
    · intro e he; simp at he; rcases he with rfl | rfl <;> simp [lineAlias]
    · intro e he; simp at he; rcases he with rfl | rfl <;> simp
  have c2 : call collAlias [("color", wc), ("alpha", al)] (without ["color", "alpha"] wkw) =
      .ok ([("color", wc), ("alpha", al)] ++ without ["color", "alpha"] wkw) := by
    refine call_without _ _ _ ⟨by simp, ?_⟩ hw ?_
    · intro e he; simp at he; rcases he with rfl | rfl <;> simp [collAlias]
    · intro e he; simp at he; rcases he with rfl | rfl <;> simp
  simp only [c1, c2, Out.draw, id, List.nil_append, List.cons_append]
  refine ⟨_, _, rfl, ?_⟩
  refine ⟨by simp [List.lookup], by simp [List.lookup], ?_, by simp [List.lookup, hwc], by simp [List.lookup], ?_⟩
  · intro o ho
    simp only [List.mem_cons, List.not_mem_nil, or_false, not_or] at ho
    have e1 : (o == "color") = false := by simpa using ho.1
    have e2 : (o == "label") = false := by simpa using ho.2
    rw [List.lookup_cons, e2]
    simp only [List.lookup_cons, e1, lookup_without]
    by_cases h : o = "ls"
    · subst h; simp [hls]
    · simp [ho, h]
  · intro o ho
    simp only [List.mem_cons, List.not_mem_nil, or_false, not_or] at ho
    have e1 : (o == "color") = false := by simpa using ho.1
    have e2 : (o == "alpha") = false := by simpa using ho.2
    simp only [List.lookup_cons, e1, e2, lookup_without]
    simp [ho]

/-- violated: without uncertainties (`wkey=None`) the default call is a NotImplementedError -/
theorem C263_no_wkey (x y w : List Fl) (kw wkw : Kw) (hk : Plain lineAlias kw) :
    plotPopt true true x y w kw wkw = ⟨[], some .notImplemented, wkw⟩ := by
  simp only [plotPopt, canon_plain hk, if_true]

/-- without a window and a line style: dashed, with error bars unless disabled -/
theorem C263_errorbar (wkeyNone : Bool) (x y w : List Fl) (kw wkw : Kw) (hk : Plain lineAlias kw) (hl : ∀ e ∈ kw, e.1 ≠ "linestyle") :
    ∃ k, plotPopt false wkeyNone x y w kw wkw = ⟨[.errorbar x y none (if wkeyNone then none else some w) k], none, wkw⟩ ∧
      k.lookup "linestyle" = some (some "--") ∧ k.lookup "color" = some ((kw.lookup "color").getD (some "cyan")) ∧
      k.lookup "label" = some ((kw.lookup "label").getD (some "1D Fits")) ∧ ∀ o, o ∉ ["color", "label", "linestyle"] → k.lookup o = kw.lookup o := by
  have hls : kw.lookup "ls" = none := by
    rw [List.lookup_eq_none_iff]
    intro e he
    have hn : e.1 ≠ "ls" := fun h => by have := hk.2 e he; rw [h] at this; simp [lineAlias] at this
    simpa using hn.symm
  simp only [plotPopt, canon_plain hk, pop_eq, without_without, List.cons_append, List.nil_append, Bool.false_eq_true, if_false]
  have l2 : (without ["color"] kw).lookup "ls" = none := by rw [lookup_without]; simp [hls]
  have l3 : (without ["color", "ls"] kw).lookup "label" = kw.lookup "label" := by rw [lookup_without]; simp
  rw [l2, l3]
  obtain ⟨c, hc⟩ : ∃ c, c = (kw.lookup "color").getD (some "cyan") := ⟨_, rfl⟩
  obtain ⟨la, hla⟩ : ∃ l, l = (kw.lookup "label").getD (some "1D Fits") := ⟨_, rfl⟩
  simp only [← hc, ← hla, Option.getD_none]
  have c1 : call lineAlias [("color", c), ("linestyle", some "--"), ("label", la)] (without ["color", "ls", "label"] kw) =
      .ok ([("color", c), ("linestyle", some "--"), ("label", la)] ++ without ["color", "ls", "label"] kw) := by
    refine call_plain ⟨by simp, ?_⟩ (plain_without _ hk) ?_
    · intro e he; simp at he; rcases he with rfl | rfl | rfl <;> simp [lineAlias]
    · intro o ho hc
      simp only [List.map_cons, List.map_nil, List.mem_cons, List.not_mem_nil, or_false] at ho
      rcases ho with rfl | rfl | rfl
      · exact keys_without ["color", "ls", "label"] kw _ (by simp) hc
      · obtain ⟨e, he, h⟩ := List.mem_map.mp hc
        exact hl e (List.mem_filter.mp he).1 h
      · exact keys_without ["color", "ls", "label"] kw _ (by simp) hc
  simp only [c1, Out.draw, id, List.nil_append, List.cons_append]
  refine ⟨_, rfl, by simp [List.lookup], by simp [List.lookup], by simp [List.lookup], ?_⟩
  intro o ho
  simp only [List.mem_cons, List.not_mem_nil, or_false, not_or] at ho
  have e1 : (o == "color") = false := by simpa using ho.1
  have e2 : (o == "label") = false := by simpa using ho.2.1
  have e3 : (o == "linestyle") = false := by simpa using ho.2.2
  simp only [List.lookup_cons, e1, e2, e3, lookup_without]
  by_cases h : o = "ls"
  · subst h; simp [hls]
  · simp [ho, h]

/-- violated: a line style, by either name, is a TypeError without a window -/
theorem C263_linestyle (wkeyNone : Bool) (x y w : List Fl) (kw wkw : Kw) (v : Val) (h : ("linestyle", v) ∈ kw ∨ ("ls", v) ∈ kw) :
    plotPopt false wkeyNone x y w kw wkw = ⟨[], some .typeError, wkw⟩ := by
  simp only [plotPopt, pop_eq, without_without, List.cons_append, List.nil_append, Bool.false_eq_true, if_false]
  rcases hc : canonKw lineAlias kw with er | k
  · have : er = .typeError := by
      unfold canonKw at hc
      split at hc
      · cases hc
      · cases hc; rfl
    subst this; rfl
  · have hk : ("linestyle", v) ∈ k := by
      unfold canonKw at hc
      split at hc
      · cases hc
        rcases h with h | h
        · exact List.mem_map.mpr ⟨_, h, by simp [lineAlias]⟩
        · exact List.mem_map.mpr ⟨_, h, by simp [lineAlias]⟩
      · cases hc
    have hm : ("linestyle", v) ∈ without ["color", "ls", "label"] k := List.mem_filter.mpr ⟨hk, by simp⟩
    simp only []
    have : ∀ c l : Val, ∀ la : Val, call lineAlias [("color", c), ("linestyle", l), ("label", la)] (without ["color", "ls", "label"] k) = .error .typeError := by
      intro c l la
      unfold call
      rw [if_pos ⟨"linestyle", by simp, List.mem_map.mpr ⟨_, hm, rfl⟩⟩]
    rw [this]
    rfl

/-- a call that meets the hypotheses -/
example : ∃ k ke kb, makePlot ⟨false, true, true⟩ [.fin 1, .fin 2] [.fin 5, .nan] (some [.fin 1, .fin 2]) [("color", some "red")] [("linestyle", some ":")] =
    ⟨[.line [.fin 1, .fin 2] [.fin 5, .nan] k, .line [.fin 1, .fin 2] (upper [.fin 5, .nan] [.fin 1, .fin 2]) ke,
      .line [.fin 1, .fin 2] (lower [.fin 5, .nan] [.fin 1, .fin 2]) ke,
      .band [.fin 1, .fin 2] (lower [.fin 5, .nan] [.fin 1, .fin 2]) (upper [.fin 5, .nan] [.fin 1, .fin 2]) kb], none, []⟩ ∧
    kb.lookup "color" = some (some "red") ∧ kb.lookup "linestyle" = some (some ":") := by
  obtain ⟨k, ke, kb, h, h1⟩ := C262_window true [.fin 1, .fin 2] [.fin 5, .nan] [.fin 1, .fin 2] [("color", some "red")] [("linestyle", some ":")]
    ⟨by simp, by simp [lineAlias]⟩ ⟨by simp, by simp [lineAlias]⟩ ⟨by simp, by simp [collAlias]⟩
  refine ⟨k, ke, kb, h.trans ?_, h1.2.2.2.2.2.1.trans ?_, h1.2.2.2.2.2.2.1.trans ?_⟩
  · simp [without]
  · simp [List.lookup]
  · simp [List.lookup]

end Draw
end SW
