import Verif.FFDraw
import Verif.Props.DrawOpts

/-!
# C264, C265: options of the plotter of a fit
-/

namespace SW
namespace Draw

/-! ### Specification -/

/-- the options `k` of a call are the caller's options `kw` completed by the defaults `ds` -/
def Given (k kw ds : Kw) : Prop :=
  (∀ e ∈ ds, k.lookup e.1 = some ((kw.lookup e.1).getD e.2)) ∧ ∀ o, o ∉ ds.map Prod.fst → k.lookup o = kw.lookup o

/-- the band around the data: value ∓ uncertainty, the values themselves (up to adding 0) without uncertainties -/
noncomputable def bandLo (d : Obs) : List Fl := match d.w with
  | none => d.y.map fun a => a - .fin 0
  | some w => lower d.y w
noncomputable def bandHi (d : Obs) : List Fl := match d.w with
  | none => d.y.map fun a => a + .fin 0
  | some w => upper d.y w

/-- defaults of the raw and the used observations, and of the fit -/
def rawDefaults : Kw := [("color", some "k"), ("label", some "$\\mathrm{Obs}$")]
noncomputable def usedDefaults (n : Nat) : Kw :=
  [("color", some "forestgreen"), ("marker", some "P"), ("markerfacecolor", some "none"), ("markersize", some "8"),
    ("markevery", (FFP.markevery n).map toString), ("label", some "$\\mathrm{Used}$")]
def fitDefaults : Kw := [("color", some "darkorange"), ("label", some "$\\mathrm{Fit}$"), ("linestyle", some "(0, (7, 3, 1, 3, 1, 3, 1, 3))")]

/-- what is drawn with a window: line, band and, if asked for, its two edges; the colour of the band is that of the line unless given, that of the edges the band's -/
def Windowed (o : Out) (d : Obs) (a : ObsKw) (kw ds : Kw) (colour : Val) : Prop :=
  ∃ k kb ke, o = ⟨[.line d.x d.y k, .band d.x (bandLo d) (bandHi d) kb] ++
      (if a.edge.isSome then [.line d.x (bandLo d) ke, .line d.x (bandHi d) ke] else []), none, a.wkw⟩ ∧
    Given k kw ds ∧ Given kb a.wkw [("color", (kw.lookup "color").getD colour), ("alpha", some "0.15")] ∧
    ∀ ek, a.edge = some ek → Given ke ek [("color", (a.wkw.lookup "color").getD ((kw.lookup "color").getD colour))]

/-- the caller's dictionaries use full names (for the edges: full names of a line and of a collection) -/
def Full (a : ObsKw) : Prop :=
  Plain lineAlias a.kw ∧ Plain collAlias a.wkw ∧ ∀ ek, a.edge = some ek → Plain collAlias ek ∧ Plain lineAlias ek

/-! ### Lemmas -/

theorem lookup_mem {d : Kw} (hd : (d.map Prod.fst).Nodup) {e : String × Val} (he : e ∈ d) : d.lookup e.1 = some e.2 := by
  induction d with
  | nil => cases he
  | cons a d ih =>
    rw [List.map_cons, List.nodup_cons] at hd
    obtain ⟨c, v⟩ := a
    rw [List.lookup_cons]
    rcases List.mem_cons.mp he with rfl | h
    · simp
    · have hne : e.1 ≠ c := fun h' => hd.1 (List.mem_map.mpr ⟨e, h, h'⟩)
      have : (e.1 == c) = false := by simpa using hne
      rw [this]; exact ih hd.2 h

theorem lookup_notMem {d : Kw} {k : String} (h : k ∉ d.map Prod.fst) : d.lookup k = none := by
  rw [List.lookup_eq_none_iff]
  intro e he
  have hn : k ≠ e.1 := fun h' => h (List.mem_map.mpr ⟨e, he, h'.symm⟩)
  simpa using hn

/-- the defaults filled in from the caller's options -/
def filled (kw ds : Kw) : Kw := ds.map fun e => (e.1, (kw.lookup e.1).getD e.2)

theorem filled_keys (kw ds : Kw) : (filled kw ds).map Prod.fst = ds.map Prod.fst := by simp [filled]

theorem given_filled {kw ds : Kw} (hd : (ds.map Prod.fst).Nodup) : Given (filled kw ds ++ without (ds.map Prod.fst) kw) kw ds := by
  have hf : ((filled kw ds).map Prod.fst).Nodup := by rw [filled_keys]; exact hd
  refine ⟨fun e he => ?_, fun o ho => ?_⟩
  · rw [lookup_append, lookup_mem hf (e := (e.1, (kw.lookup e.1).getD e.2)) (List.mem_map.mpr ⟨e, he, rfl⟩)]
    rfl
  · rw [lookup_append, lookup_notMem (by rw [filled_keys]; exact ho), lookup_without, if_neg ho]
    rfl

theorem call_filled {canon : String → String} {kw ds : Kw} (hk : Plain canon kw) (hd : Plain canon ds) :
    call canon (filled kw ds) (without (ds.map Prod.fst) kw) = .ok (filled kw ds ++ without (ds.map Prod.fst) kw) := by
  refine call_without _ _ _ ⟨by rw [filled_keys]; exact hd.1, fun e he => ?_⟩ hk fun e he => ?_
  · obtain ⟨f, hf, rfl⟩ := List.mem_map.mp he
    exact hd.2 f hf
  · obtain ⟨f, hf, rfl⟩ := List.mem_map.mp he
    exact List.mem_map.mpr ⟨f, hf, rfl⟩

theorem window_eq (d : Obs) : FFP.window d.y d.w = (bandLo d, bandHi d) := by
  unfold FFP.window bandLo bandHi lower upper
  cases d.w <;> rfl

theorem plain1 (canon : String → String) (k : String) (v : Val) (h : canon k = k) : Plain canon [(k, v)] :=
  ⟨by simp, by intro e he; rw [List.mem_singleton.mp he]; exact h⟩

theorem plain_band (v : Val) : Plain collAlias [("color", v), ("alpha", some "0.15")] :=
  ⟨by simp, by intro e he; simp at he; rcases he with rfl | rfl <;> simp [collAlias]⟩

theorem plain_append {canon : String → String} {kw ds : Kw} (hk : Plain canon kw) (hd : Plain canon ds) :
    Plain canon (filled kw ds ++ without (ds.map Prod.fst) kw) := by
  refine ⟨?_, fun e he => ?_⟩
  · rw [List.map_append, List.nodup_append, filled_keys]
    exact ⟨hd.1, (plain_without _ hk).1, fun a ha b hb hab => keys_without _ kw a ha (hab ▸ hb)⟩
  · rcases List.mem_append.mp he with h | h
    · obtain ⟨f, hf, rfl⟩ := List.mem_map.mp h
      exact hd.2 f hf
    · exact (plain_without _ hk).2 e h

/-- the common part, with a window -/
theorem drawObs_window (d : Obs) (a : ObsKw) (color : Val) (kw ds : Kw) (ha : a.window = true) (hkw : Plain lineAlias kw) (hds : Plain lineAlias ds)
    (hw : Plain collAlias a.wkw) (he : ∀ ek, a.edge = some ek → Plain collAlias ek ∧ Plain lineAlias ek)
    (hc : color = (kw.lookup "color").getD color) :
    Windowed (drawObs d a color (filled kw ds) (without (ds.map Prod.fst) kw)) d a kw ds color := by
  have hcall := call_filled hkw hds
  have hband := call_filled hw (plain_band color)
  have e2 : filled a.wkw [("color", color), ("alpha", some "0.15")] = [("color", (a.wkw.lookup "color").getD color), ("alpha", (a.wkw.lookup "alpha").getD (some "0.15"))] := rfl
  have e3 : List.map Prod.fst [("color", color), ("alpha", some "0.15")] = ["color", "alpha"] := rfl
  rw [e2, e3] at hband
  have w1 : (without ["color"] a.wkw).lookup "alpha" = a.wkw.lookup "alpha" := by rw [lookup_without]; simp
  have gb : Given ([("color", (a.wkw.lookup "color").getD color), ("alpha", (a.wkw.lookup "alpha").getD (some "0.15"))] ++ without ["color", "alpha"] a.wkw) a.wkw
      [("color", (kw.lookup "color").getD color), ("alpha", some "0.15")] := by
    rw [← hc]; exact given_filled (plain_band color).1
  simp only [drawObs, ha, if_true, canon_plain hw, pop_eq, without_without, List.cons_append, List.nil_append, w1, window_eq, Out.draw, hcall]
  simp only [List.cons_append, List.nil_append] at hband gb
  rw [hband]
  simp only []
  cases hE : a.edge with
  | none =>
    refine ⟨_, _, [], ?_, given_filled hds.1, gb, ?_⟩
    · simp [obsEdges, hE]
    · intro ek h; rw [hE] at h; cases h
  | some ek =>
    obtain ⟨h1, h2⟩ := he ek hE
    obtain ⟨wc, hwc⟩ : ∃ wc, wc = (a.wkw.lookup "color").getD color := ⟨_, rfl⟩
    have pe := plain1 collAlias "color" wc (by simp [collAlias])
    have pl := plain1 lineAlias "color" wc (by simp [lineAlias])
    have c1 := call_filled h1 pe
    have c2 := canon_plain (plain_append h2 pl)
    refine ⟨_, _, filled ek [("color", wc)] ++ without ["color"] ek, ?_, given_filled hds.1, gb, ?_⟩
    · rw [← hwc]
      simp only [obsEdges, canon_plain h1, pop_eq]
      have f1 : filled ek [("color", wc)] = [("color", (ek.lookup "color").getD wc)] := rfl
      have f2 : List.map Prod.fst [("color", wc)] = ["color"] := rfl
      rw [f1, f2] at c1 c2
      rw [c1]
      simp only [List.cons_append, List.nil_append] at c2
      simp only [Out.draw, c2, hE, Option.isSome, if_true, List.cons_append, List.nil_append, f1, id]
    · intro ek' h
      rw [hE] at h
      cases h
      rw [← hc, ← hwc]
      exact given_filled pe.1

theorem drawObs_bars (d : Obs) (a : ObsKw) (color : Val) (kw ds : Kw) (ha : a.window = false) (hkw : Plain lineAlias kw) (hds : Plain lineAlias ds) :
    ∃ k, drawObs d a color (filled kw ds) (without (ds.map Prod.fst) kw) = ⟨[.errorbar d.x d.y none d.w k], none, a.wkw⟩ ∧ Given k kw ds := by
  refine ⟨_, ?_, given_filled hds.1⟩
  simp only [drawObs, ha, Bool.false_eq_true, if_false, call_filled hkw hds, Out.draw, id, List.nil_append]

theorem raw_plain : Plain lineAlias rawDefaults :=
  ⟨by simp [rawDefaults], by intro e he; simp [rawDefaults] at he; rcases he with rfl | rfl <;> simp [lineAlias]⟩
theorem used_plain (n : Nat) : Plain lineAlias (usedDefaults n) :=
  ⟨by simp [usedDefaults], by intro e he; simp [usedDefaults] at he; rcases he with rfl | rfl | rfl | rfl | rfl | rfl <;> simp [lineAlias]⟩
theorem fit_plain : Plain lineAlias fitDefaults :=
  ⟨by simp [fitDefaults], by intro e he; simp [fitDefaults] at he; rcases he with rfl | rfl | rfl <;> simp [lineAlias]⟩

theorem plotRaw_eq (d : Obs) (a : ObsKw) (h : Plain lineAlias a.kw) :
    plotRaw d a = drawObs d a ((a.kw.lookup "color").getD (some "k")) (filled a.kw rawDefaults) (without (rawDefaults.map Prod.fst) a.kw) := by
  simp only [plotRaw, canon_plain h, pop_eq, without_without, List.cons_append, List.nil_append]
  have l : (without ["color"] a.kw).lookup "label" = a.kw.lookup "label" := by rw [lookup_without]; simp
  rw [l]
  rfl

theorem plotUsed_eq (d : Obs) (a : ObsKw) (h : Plain lineAlias a.kw) (hm : a.kw.lookup "markevery" ≠ some none) :
    plotUsed d a = drawObs d a ((a.kw.lookup "color").getD (some "forestgreen")) (filled a.kw (usedDefaults d.x.length))
      (without ((usedDefaults d.x.length).map Prod.fst) a.kw) := by
  simp only [plotUsed, canon_plain h, pop_eq, without_without, List.cons_append, List.nil_append, lookup_without]
  simp only [filled, usedDefaults, List.map_cons, List.map_nil]
  rcases hv : a.kw.lookup "markevery" with _ | v
  · simp
  · rcases v with _ | v
    · exact absurd hv hm
    · simp

theorem getD_getD (c : Option Val) (v : Val) : c.getD v = c.getD (c.getD v) := by cases c <;> rfl

/-! ### C264 -/

/-- the raw observations with a window: see `Windowed`; the dictionaries of the caller are left as they are -/
theorem C264_raw (d : Obs) (a : ObsKw) (h : Full a) (ha : a.window = true) :
    Windowed (plotRaw d a) d a a.kw rawDefaults (some "k") := by
  rw [plotRaw_eq d a h.1]
  have := drawObs_window d a ((a.kw.lookup "color").getD (some "k")) a.kw rawDefaults ha h.1 raw_plain h.2.1 h.2.2 (getD_getD _ _)
  unfold Windowed at this ⊢
  rw [← getD_getD] at this
  exact this

/-- without one: error bars if there are weights, nothing for the window or its edges -/
theorem C264_raw_bars (d : Obs) (a : ObsKw) (h : Plain lineAlias a.kw) (ha : a.window = false) :
    ∃ k, plotRaw d a = ⟨[.errorbar d.x d.y none d.w k], none, a.wkw⟩ ∧ Given k a.kw rawDefaults := by
  rw [plotRaw_eq d a h]
  exact drawObs_bars d a _ _ _ ha h raw_plain

/-- the used observations likewise, with markers whose spacing follows the number of points unless given -/
theorem C264_used (d : Obs) (a : ObsKw) (h : Full a) (hm : a.kw.lookup "markevery" ≠ some none) (ha : a.window = true) :
    Windowed (plotUsed d a) d a a.kw (usedDefaults d.x.length) (some "forestgreen") := by
  rw [plotUsed_eq d a h.1 hm]
  have := drawObs_window d a ((a.kw.lookup "color").getD (some "forestgreen")) a.kw (usedDefaults d.x.length) ha h.1 (used_plain _) h.2.1 h.2.2
    (getD_getD _ _)
  unfold Windowed at this ⊢
  rw [← getD_getD] at this
  exact this

theorem C264_used_bars (d : Obs) (a : ObsKw) (h : Plain lineAlias a.kw) (hm : a.kw.lookup "markevery" ≠ some none) (ha : a.window = false) :
    ∃ k, plotUsed d a = ⟨[.errorbar d.x d.y none d.w k], none, a.wkw⟩ ∧ Given k a.kw (usedDefaults d.x.length) := by
  rw [plotUsed_eq d a h hm]
  exact drawObs_bars d a _ _ _ ha h (used_plain _)

/-- `markevery=None` is the same as leaving it out -/
theorem C264_markevery (d : Obs) (a : ObsKw) (h : Plain lineAlias a.kw) (hm : "markevery" ∉ a.kw.map Prod.fst) :
    plotUsed d { a with kw := ("markevery", none) :: a.kw } = plotUsed d a := by
  have hp : Plain lineAlias (("markevery", none) :: a.kw) := by
    refine ⟨?_, fun e he => ?_⟩
    · rw [List.map_cons, List.nodup_cons]; exact ⟨hm, h.1⟩
    · rcases List.mem_cons.mp he with rfl | h'
      · simp [lineAlias]
      · exact h.2 e h'
  have hl := lookup_notMem hm
  simp only [plotUsed, canon_plain h, canon_plain hp, pop_eq, without_without, List.cons_append, List.nil_append, lookup_without]
  have hw : without ["color", "marker", "markerfacecolor", "markersize", "markevery", "label"] (("markevery", none) :: a.kw) =
      without ["color", "marker", "markerfacecolor", "markersize", "markevery", "label"] a.kw := by
    simp [without]
  rw [hw]
  simp [List.lookup, hl, drawObs]

/-- violated: the abbreviation `c` of a colour, good for the line, is a TypeError for the edges of the window; line and band are drawn by then -/
theorem C264_edge_colour (d : Obs) (a : ObsKw) (ek : Kw) (v : Val) (hk : Plain lineAlias a.kw) (hw : Plain collAlias a.wkw) (ha : a.window = true)
    (he : a.edge = some ek) (hc : ("c", v) ∈ ek) :
    ∃ k kb, plotRaw d a = ⟨[.line d.x d.y k, .band d.x (bandLo d) (bandHi d) kb], some .typeError, a.wkw⟩ := by
  obtain ⟨k, kb, ke, h, -⟩ := C264_raw d { a with edge := none } ⟨hk, hw, by simp⟩ ha
  refine ⟨k, kb, ?_⟩
  rw [plotRaw_eq d { a with edge := none } hk] at h
  rw [plotRaw_eq d a hk]
  have hcall := call_filled hk raw_plain
  simp only [drawObs, ha, if_true, canon_plain hw, pop_eq, window_eq, Out.draw, hcall] at h ⊢
  split at h
  · simp at h
  · rename_i kb' hb
    simp only [obsEdges, Option.isSome, Bool.false_eq_true, if_false, List.append_nil, Out.mk.injEq] at h
    rw [he]
    obtain ⟨h1, -, -⟩ := h
    simp only [obsEdges, pop_eq]
    rcases hx : canonKw collAlias ek with er | e'
    · have : er = .typeError := by
        unfold canonKw at hx
        split at hx
        · cases hx
        · cases hx; rfl
      subst this
      simp only []
      rw [h1]
    · have hm : ("c", v) ∈ e' := by
        unfold canonKw at hx
        split at hx
        · cases hx
          exact List.mem_map.mpr ⟨_, hc, by simp [collAlias]⟩
        · cases hx
      simp only []
      rcases hy : call collAlias [("color", (e'.lookup "color").getD ((a.wkw.lookup "color").getD ((a.kw.lookup "color").getD (some "k"))))]
          (without ["color"] e') with er | e2
      · have := call_err _ _ _ _ hy
        subst this
        simp only []
        rw [h1]
      · have hn : canonKw lineAlias e2 = .error .typeError := by
          unfold call at hy
          split at hy
          · cases hy
          · unfold canonKw at hy
            split at hy
            · cases hy
              unfold canonKw
              rw [if_neg]
              intro hnd
              simp only [List.cons_append, List.nil_append, List.map_cons, List.nodup_cons] at hnd
              apply hnd.1
              have hm' : ("c", v) ∈ without ["color"] e' := List.mem_filter.mpr ⟨hm, by simp⟩
              rw [List.map_map]
              exact List.mem_map.mpr ⟨("c", v), hm', by simp [lineAlias, collAlias]⟩
            · cases hy
        simp only [hn]
        rw [h1]
        rfl

theorem lineAlias_idem (k : String) : lineAlias (lineAlias k) = lineAlias k := by
  have h : lineAlias k = k ∨ lineAlias k ∈ ["antialiased", "color", "drawstyle", "linestyle", "linewidth", "markeredgecolor", "markeredgewidth", "markerfacecolor",
      "markerfacecoloralt", "markersize"] := by
    generalize hg : lineAlias k = g
    unfold lineAlias at hg
    repeat' split at hg
    all_goals subst hg
    all_goals first | exact Or.inl rfl | (right; simp)
  rcases h with h | h
  · rw [h]; exact h
  · generalize lineAlias k = g at h
    simp only [List.mem_cons, List.not_mem_nil, or_false] at h
    rcases h with rfl | rfl | rfl | rfl | rfl | rfl | rfl | rfl | rfl | rfl <;> simp [lineAlias]

theorem collAlias_idem (k : String) : collAlias (collAlias k) = collAlias k := by
  have h : collAlias k = k ∨ collAlias k ∈ ["antialiased", "edgecolor", "facecolor", "linestyle", "linewidth", "offset_transform"] := by
    generalize hg : collAlias k = g
    unfold collAlias at hg
    repeat' split at hg
    all_goals subst hg
    all_goals first | exact Or.inl rfl | (right; simp)
  rcases h with h | h
  · rw [h]; exact h
  · generalize collAlias k = g at h
    simp only [List.mem_cons, List.not_mem_nil, or_false] at h
    rcases h with rfl | rfl | rfl | rfl | rfl | rfl <;> simp [collAlias]

theorem canon_ok_plain {canon : String → String} (hi : ∀ k, canon (canon k) = canon k) {d d' : Kw} (h : canonKw canon d = .ok d') : Plain canon d' := by
  unfold canonKw at h
  split at h
  · rename_i hn
    cases h
    refine ⟨by rw [List.map_map]; exact hn, fun e he => ?_⟩
    obtain ⟨f, -, rfl⟩ := List.mem_map.mp he
    exact hi f.1
  · cases h

/-- abbreviated options have the effect of the full names -/
theorem C264_names (d : Obs) (a : ObsKw) (kw wkw : Kw) (h : canonKw lineAlias a.kw = .ok kw) (hw : canonKw collAlias a.wkw = .ok wkw) :
    Plain lineAlias kw ∧ Plain collAlias wkw ∧
    plotRaw d a = { plotRaw d { a with kw := kw, wkw := wkw } with wkw := a.wkw } ∧
    plotUsed d a = { plotUsed d { a with kw := kw, wkw := wkw } with wkw := a.wkw } := by
  have p1 := canon_ok_plain lineAlias_idem h
  have p2 := canon_ok_plain collAlias_idem hw
  have key : ∀ color named rest, drawObs d a color named rest =
      { drawObs d { a with kw := kw, wkw := wkw } color named rest with wkw := a.wkw } := by
    intro color named rest
    simp only [drawObs, hw, canon_plain p2]
    split
    · simp only [Out.draw]
      split
      · rfl
      · split
        · rfl
        · simp only [obsEdges]
          split
          · rfl
          · split
            · rfl
            · split
              · rfl
              · simp only [Out.draw]
                split
                · rfl
                · rfl
    · simp only [Out.draw]
      split <;> rfl
  refine ⟨p1, p2, ?_, ?_⟩
  · simp only [plotRaw, h, canon_plain p1, key]
  · simp only [plotUsed, h, canon_plain p1, key]

/-- two names of the same option are a TypeError and nothing is drawn -/
theorem C264_twice (d : Obs) (a : ObsKw) (h : ¬ (a.kw.map fun e => lineAlias e.1).Nodup) :
    plotRaw d a = ⟨[], some .typeError, a.wkw⟩ ∧ plotUsed d a = ⟨[], some .typeError, a.wkw⟩ := by
  have hc : canonKw lineAlias a.kw = .error .typeError := by unfold canonKw; rw [if_neg h]
  simp only [plotRaw, plotUsed, hc, and_self]

/-! ### C265 -/

/-- the fit: one curve over all observations with the caller's options completed by the defaults; the text box if asked for -/
theorem C265_fit (x fit : List Fl) (annotate : Bool) (akw kw : Kw) (h : Plain lineAlias kw) :
    ∃ k, plotFit x fit annotate akw kw = ⟨[.line x fit k], if annotate then some akw else none, none⟩ ∧ Given k kw fitDefaults := by
  refine ⟨_, ?_, given_filled fit_plain.1⟩
  have hc := call_filled h fit_plain
  simp only [plotFit, canon_plain h, pop_eq, without_without, List.cons_append, List.nil_append, lookup_without]
  simp only [filled, fitDefaults, List.map_cons, List.map_nil, List.cons_append, List.nil_append] at hc ⊢
  simp [hc]

theorem not_repeated {names : List String} {d : Kw} (h : ∀ n ∈ names, n ∉ d.map Prod.fst) : repeated names d = false := by
  unfold repeated
  rw [List.any_eq_false]
  intro n hn
  simpa using h n hn

theorem is_repeated {names : List String} {d : Kw} {n : String} {v : Val} (hn : n ∈ names) (h : (n, v) ∈ d) : repeated names d = true := by
  unfold repeated
  rw [List.any_eq_true]
  exact ⟨n, hn, by simpa using ⟨v, h⟩⟩

/-- a draw style put in front of a full-name dictionary without one -/
theorem plain_style {kw : Kw} (s : Val) (h : Plain lineAlias kw) (hd : "drawstyle" ∉ kw.map Prod.fst) : Plain lineAlias (("drawstyle", s) :: kw) := by
  refine ⟨?_, fun e he => ?_⟩
  · rw [List.map_cons, List.nodup_cons]; exact ⟨hd, h.1⟩
  · rcases List.mem_cons.mp he with rfl | h'
    · simp [lineAlias]
    · exact h.2 e h'

/-- the style shared by raw and used observations: "steps-mid" unless given -/
def sharedStyle (s : Val) : String × Val := ("drawstyle", some (s.getD "steps-mid"))

/-- the whole plot: raw observations, used observations and fit, in this order; the first two share the draw style, the fit does not get it -/
theorem C265_all (raw used : Obs) (fit : List Fl) (s : Val) (annotate : Bool) (ra ua : ObsKw) (fkw akw : Kw) (hr : Full ra) (hu : Full ua) (hf : Plain lineAlias fkw)
    (wr : ra.window = true) (wu : ua.window = true) (hm : ua.kw.lookup "markevery" ≠ some none)
    (nr : ∀ n ∈ ["ax", "drawstyle"], n ∉ ra.kw.map Prod.fst) (nu : ∀ n ∈ ["ax", "drawstyle"], n ∉ ua.kw.map Prod.fst)
    (nf : ∀ n ∈ ["ax", "annotate", "annotate_kwargs"], n ∉ fkw.map Prod.fst) :
    ∃ r u : Out, ∃ k, rawUsedFit raw used fit s annotate ra ua (some fkw) akw =
        ⟨r.evs ++ u.evs ++ [.line raw.x fit k], if annotate then some akw else none, none⟩ ∧
      Windowed r raw ra (sharedStyle s :: ra.kw) rawDefaults (some "k") ∧
      Windowed u used ua (sharedStyle s :: ua.kw) (usedDefaults used.x.length) (some "forestgreen") ∧ Given k fkw fitDefaults := by
  have h1 := C264_raw raw { ra with kw := sharedStyle s :: ra.kw } ⟨plain_style _ hr.1 (nr _ (by simp)), hr.2⟩ wr
  have hl : List.lookup "markevery" (sharedStyle s :: ua.kw) ≠ some none := by simpa [sharedStyle, List.lookup] using hm
  have h2 := C264_used used { ua with kw := sharedStyle s :: ua.kw } ⟨plain_style _ hu.1 (nu _ (by simp)), hu.2⟩ hl wu
  obtain ⟨k, h3, hk⟩ := C265_fit raw.x fit annotate akw fkw hf
  refine ⟨plotRaw raw { ra with kw := sharedStyle s :: ra.kw }, plotUsed used { ua with kw := sharedStyle s :: ua.kw }, k, ?_, h1, h2, hk⟩
  obtain ⟨_, _, _, e1, -⟩ := h1
  obtain ⟨_, _, _, e2, -⟩ := h2
  have r1 := congrArg Out.err e1
  have r2 := congrArg Out.err e2
  simp only [sharedStyle] at r1 r2 ⊢
  simp only [rawUsedFit, not_repeated nr, not_repeated nu, Option.getD_some, not_repeated nf, Bool.false_eq_true, if_false, r1, r2, h3]

/-- no options for the fit: it is drawn above the observations -/
theorem C265_zorder (raw used : Obs) (fit : List Fl) (s : Val) (annotate : Bool) (ra ua : ObsKw) (akw : Kw) :
    rawUsedFit raw used fit s annotate ra ua none akw = rawUsedFit raw used fit s annotate ra ua (some [("zorder", some "2.2")]) akw := rfl

/-- violated: a draw style for the raw observations alone, by either name, is a TypeError and nothing is drawn -/
theorem C265_raw_style (raw used : Obs) (fit : List Fl) (s v : Val) (annotate : Bool) (ra ua : ObsKw) (fkw : Option Kw) (akw : Kw)
    (h : ("drawstyle", v) ∈ ra.kw ∨ ("ds", v) ∈ ra.kw) :
    rawUsedFit raw used fit s annotate ra ua fkw akw = ⟨[], none, some .typeError⟩ := by
  simp only [rawUsedFit]
  split
  · rfl
  · rename_i hr
    rcases h with h | h
    · exact absurd (is_repeated (by simp) h) hr
    · have hc : canonKw lineAlias (("drawstyle", some (s.getD "steps-mid")) :: ra.kw) = .error .typeError := by
        unfold canonKw
        rw [if_neg]
        rw [List.map_cons, List.nodup_cons]
        intro hn
        exact hn.1 (List.mem_map.mpr ⟨_, h, by simp [lineAlias]⟩)
      simp only [plotRaw, hc]

/-- violated: one for the used observations alone is a TypeError after the raw observations are drawn; used observations, fit and text box are missing -/
theorem C265_used_style (raw used : Obs) (fit : List Fl) (s v : Val) (annotate : Bool) (ra ua : ObsKw) (fkw : Option Kw) (akw : Kw) (hr : Full ra)
    (wr : ra.window = true) (nr : ∀ n ∈ ["ax", "drawstyle"], n ∉ ra.kw.map Prod.fst) (h : ("drawstyle", v) ∈ ua.kw ∨ ("ds", v) ∈ ua.kw) :
    ∃ r : Out, rawUsedFit raw used fit s annotate ra ua fkw akw = ⟨r.evs, none, some .typeError⟩ ∧
      Windowed r raw ra (sharedStyle s :: ra.kw) rawDefaults (some "k") := by
  have h1 := C264_raw raw { ra with kw := sharedStyle s :: ra.kw } ⟨plain_style _ hr.1 (nr _ (by simp)), hr.2⟩ wr
  refine ⟨plotRaw raw { ra with kw := sharedStyle s :: ra.kw }, ?_, h1⟩
  obtain ⟨_, _, _, e1, -⟩ := h1
  have r1 := congrArg Out.err e1
  simp only [sharedStyle] at r1 ⊢
  simp only [rawUsedFit, not_repeated nr, Bool.false_eq_true, if_false, r1]
  split
  · rfl
  · rename_i hru
    rcases h with h | h
    · exact absurd (is_repeated (by simp) h) hru
    · have hc : canonKw lineAlias (("drawstyle", some (s.getD "steps-mid")) :: ua.kw) = .error .typeError := by
        unfold canonKw
        rw [if_neg]
        rw [List.map_cons, List.nodup_cons]
        intro hn
        exact hn.1 (List.mem_map.mpr ⟨_, h, by simp [lineAlias]⟩)
      simp [plotUsed, hc]

/-- a plot that meets the hypotheses: weights, edges, a colour for the window -/
example : ∃ r u : Out, ∃ k, rawUsedFit ⟨[.fin 1, .fin 2, .fin 3], [.fin 5, .nan, .fin 6], some [.fin 1, .fin 1, .fin 1]⟩ ⟨[.fin 1, .fin 3], [.fin 5, .fin 6], none⟩
      [.fin 5, .fin 5, .fin 6] none true ⟨true, some [("linestyle", some ":")], [("color", some "red")], [("label", some "a")]⟩ ⟨true, none, [], []⟩
      (some [("zorder", some "2.2")]) [] =
      ⟨r.evs ++ u.evs ++ [.line [.fin 1, .fin 2, .fin 3] [.fin 5, .fin 5, .fin 6] k], some [], none⟩ ∧ r.evs.length = 4 ∧ u.evs.length = 2 ∧
      k.lookup "zorder" = some (some "2.2") ∧ k.lookup "drawstyle" = none := by
  obtain ⟨r, u, k, h, ⟨_, _, _, hr, -⟩, ⟨_, _, _, hu, -⟩, hk⟩ := C265_all ⟨[.fin 1, .fin 2, .fin 3], [.fin 5, .nan, .fin 6], some [.fin 1, .fin 1, .fin 1]⟩
    ⟨[.fin 1, .fin 3], [.fin 5, .fin 6], none⟩ [.fin 5, .fin 5, .fin 6] none true ⟨true, some [("linestyle", some ":")], [("color", some "red")], [("label", some "a")]⟩
    ⟨true, none, [], []⟩ [("zorder", some "2.2")] [] ⟨⟨by simp, by simp [lineAlias]⟩, ⟨by simp, by simp [collAlias]⟩, by
      intro ek h; cases h; exact ⟨⟨by simp, by simp [collAlias]⟩, ⟨by simp, by simp [lineAlias]⟩⟩⟩ ⟨⟨by simp, by simp⟩, ⟨by simp, by simp⟩, by simp⟩
    ⟨by simp, by simp [lineAlias]⟩ rfl rfl (by simp) (by simp) (by simp) (by simp)
  refine ⟨r, u, k, by simpa using h, by rw [hr]; rfl, by rw [hu]; rfl, ?_, ?_⟩
  · rw [hk.2 _ (by simp [fitDefaults])]; rfl
  · rw [hk.2 _ (by simp [fitDefaults])]; rfl

end Draw
end SW
