import Verif.JointDraw
import Verif.Props.FFDraw

/-!
# C269, C270: joint plots
-/

namespace SW
namespace Draw

/-! ### C269 -/

/-- the colour bar's axes and orientation: the caller's, else a horizontal one below the histogram -/
def barWanted (a : Axes4) (b : BarKw) : JEv := .bar (b.cax.getD a.c) (b.orientation.getD "horizontal")

/-- a band among the drawn things -/
def JEv.IsBand : JEv → Prop
  | .curve _ e => e.IsBand
  | _ => False

theorem canon_err {canon : String → String} {d : Kw} {e : PyErr} (h : canonKw canon d = .error e) : e = .typeError := by
  unfold canonKw at h
  split at h
  · cases h
  · cases h; rfl

/-- every error of a 1-D plot with a window is a TypeError -/
theorem makePlot_err (op : Opts) (x y : List Fl) (dy : Option (List Fl)) (kw wkw : Kw) (e : PyErr) (h : (makePlot op x y dy kw wkw).err = some e) : e = .typeError := by
  have draw : ∀ (o : Out) (canon : String → String) (n r : Kw) (mk : Kw → Ev) (next : Out → Out), o.err = none →
      (∀ o', o'.err = none → ∀ e, (next o').err = some e → e = .typeError) → ∀ e, (o.draw (call canon n r) mk next).err = some e → e = .typeError := by
    intro o canon n r mk next ho hn e he
    rcases hc : call canon n r with er | k
    · rw [hc] at he
      simp only [Out.draw, Option.some.injEq] at he
      rw [← he]; exact call_err _ _ _ _ hc
    · rw [hc] at he
      exact hn { o with evs := o.evs ++ [mk k] } ho e he
  have hmin : ∀ y dy er, minus y dy = .error er → er = .typeError := by
    intro y dy er h; unfold minus at h; cases dy <;> cases h; rfl
  have hplus : ∀ y dy er, plus y dy = .error er → er = .typeError := by
    intro y dy er h; unfold plus at h; cases dy <;> cases h; rfl
  have edges : ∀ (o : Out) (b : Bool) (x y : List Fl) (dy : Option (List Fl)) (c l : Val) (next : Out → Out), o.err = none →
      (∀ o', o'.err = none → ∀ e, (next o').err = some e → e = .typeError) → ∀ e, (drawEdges o b x y dy c l next).err = some e → e = .typeError := by
    intro o b x y dy c l next ho hn e he
    unfold drawEdges at he
    split at he
    · split at he
      · rename_i er hp
        simp only [Option.some.injEq] at he
        rw [← he]; exact hplus _ _ _ hp
      · refine draw o _ _ _ _ _ ho ?_ e he
        intro o' ho' e he
        split at he
        · rename_i er hp
          simp only [Option.some.injEq] at he
          rw [← he]; exact hmin _ _ _ hp
        · exact draw o' _ _ _ _ _ ho' hn e he
    · exact hn o ho e he
  simp only [makePlot] at h
  split at h
  · rename_i er hc
    simp only [Option.some.injEq] at h
    rw [← h]; exact canon_err hc
  · split at h
    · simp only [drawWindow] at h
      refine draw ⟨[], none, _⟩ _ _ _ _ _ rfl ?_ e h
      intro o' ho' e he
      refine edges o' _ _ _ _ _ _ _ ho' ?_ e he
      intro o2 ho2 e he
      split at he
      · rename_i er hp
        simp only [Option.some.injEq] at he
        rw [← he]; exact hmin _ _ _ hp
      · split at he
        · rename_i er hp
          simp only [Option.some.injEq] at he
          rw [← he]; exact hplus _ _ _ hp
        · refine draw o2 _ _ _ _ _ ho2 ?_ e he
          intro o3 ho3 e he
          simp only [id, ho3] at he
          cases he
    · refine draw ⟨[], none, _⟩ _ _ _ _ _ rfl ?_ e h
      intro o3 ho3 e he
      simp only [id, ho3] at he
      cases he

/-- the 2-D histogram, its colour bar, the x marginal above it and the y marginal beside it with exchanged axes, both with the caller's options -/
theorem C269_all (a : Axes4) (mx my : Marg) (cbar : Bool) (b : BarKw) (k : Kw1) (hb : b.ax = none) (hw : k.window = false) (ht : k.transpose = none)
    (hk : Plain lineAlias k.kw) :
    ∃ kx ky, joint a mx my cbar b k = ⟨[.mesh a.h] ++ (if cbar then [barWanted a b] else []) ++
        [.curve a.x (.errorbar mx.x mx.y none mx.dy kx), .curve a.y (.errorbar my.y my.x my.dy none ky)], none, ⟨none, none, none⟩⟩ ∧
      Given kx k.kw [("drawstyle", some "steps-mid")] ∧ Given ky k.kw [("drawstyle", some "steps-mid")] := by
  obtain ⟨kx, hx, hx1, hx2⟩ := C262_errorbar k.edges false mx.x mx.y mx.dy k.kw k.wkw hk
  obtain ⟨ky, hy, hy1, hy2⟩ := C262_errorbar k.edges true my.x my.y my.dy k.kw k.wkw hk
  simp only [Bool.false_eq_true, if_false] at hx
  simp only [if_true] at hy
  refine ⟨kx, ky, ?_, ⟨?_, ?_⟩, ⟨?_, ?_⟩⟩
  · cases cbar
    · simp only [joint, marginals, ht, hw, Option.getD_none, hx, hy, hb, Bool.false_eq_true, if_false, Option.isSome_none, List.map_cons, List.map_nil, List.cons_append,
        List.nil_append]
    · simp only [joint, marginals, ht, hw, Option.getD_none, hx, hy, hb, if_true, Bool.false_eq_true, if_false, Option.isSome_none, List.map_cons, List.map_nil,
        List.cons_append, List.nil_append, barWanted]
  · intro e he; rw [List.mem_singleton.mp he]; exact hx1
  · intro o ho; exact hx2 o (by simpa using ho)
  · intro e he; rw [List.mem_singleton.mp he]; exact hy1
  · intro o ho; exact hy2 o (by simpa using ho)

/-- violated: `ax` in `cbar_kwargs`, accepted by the 2-D plot alone, is a ValueError here that leaves a figure without marginal histograms -/
theorem C269_ax (a : Axes4) (mx my : Marg) (b : BarKw) (k : Kw1) (h : b.ax ≠ none) :
    (joint a mx my true b k).evs = [.mesh a.h] ∧ (joint a mx my true b k).err = some .valueError := by
  have : b.ax.isSome = true := Option.isSome_iff_ne_none.mpr h
  simp only [joint, this, if_true, and_self]

/-- violated: a window for the marginal histograms is always a TypeError, even with two aggregations, because of the y marginal; the y marginal gets no band -/
theorem C269_window (a : Axes4) (mx my : Marg) (cbar : Bool) (b : BarKw) (k : Kw1) (hb : b.ax = none) (hw : k.window = true) :
    (joint a mx my cbar b k).err = some .typeError ∧ ∀ e ∈ (joint a mx my cbar b k).evs, ∀ ax x lo hi kw, e = .curve ax (.band x lo hi kw) →
      ∃ e' ∈ (makePlot ⟨k.transpose.getD false, true, k.edges⟩ mx.x mx.y mx.dy k.kw k.wkw).evs, e = .curve a.x e' := by
  have key : ∀ done : List JEv, (∀ e ∈ done, ¬ e.IsBand) → ∀ bar, (marginals a mx my k done bar).err = some .typeError ∧
      ∀ e ∈ (marginals a mx my k done bar).evs, ∀ ax x lo hi kw, e = .curve ax (.band x lo hi kw) →
        ∃ e' ∈ (makePlot ⟨k.transpose.getD false, true, k.edges⟩ mx.x mx.y mx.dy k.kw k.wkw).evs, e = .curve a.x e' := by
    intro done hd bar
    have base : ∀ e ∈ done ++ (makePlot ⟨k.transpose.getD false, true, k.edges⟩ mx.x mx.y mx.dy k.kw k.wkw).evs.map (JEv.curve a.x), ∀ ax x lo hi kw,
        e = .curve ax (.band x lo hi kw) → ∃ e' ∈ (makePlot ⟨k.transpose.getD false, true, k.edges⟩ mx.x mx.y mx.dy k.kw k.wkw).evs, e = .curve a.x e' := by
      intro e he ax x lo hi kw heq
      rcases List.mem_append.mp he with h | h
      · exact absurd (by rw [heq]; trivial) (hd e h)
      · obtain ⟨e', h1, h2⟩ := List.mem_map.mp h
        exact ⟨e', h1, h2.symm⟩
    simp only [marginals, hw]
    cases hE : (makePlot ⟨k.transpose.getD false, true, k.edges⟩ mx.x mx.y mx.dy k.kw k.wkw).err with
    | some e =>
      have ht : e = .typeError := by
        by_cases h : k.transpose.getD false = true ∨ mx.dy = none
        · have := (C262_no_window k.edges (k.transpose.getD false) mx.x mx.y mx.dy k.kw k.wkw h).1
          rw [hE] at this
          exact Option.some.inj this
        · have := makePlot_err ⟨k.transpose.getD false, true, k.edges⟩ mx.x mx.y mx.dy k.kw k.wkw e hE
          exact this
      subst ht
      exact ⟨rfl, base⟩
    | none =>
      simp only []
      split
      · exact ⟨rfl, base⟩
      · obtain ⟨h1, h2⟩ := C262_no_window k.edges true my.x my.y my.dy k.kw (makePlot ⟨k.transpose.getD false, true, k.edges⟩ mx.x mx.y mx.dy k.kw k.wkw).wkw (Or.inl rfl)
        refine ⟨h1, fun e he ax x lo hi kw heq => ?_⟩
        rcases List.mem_append.mp he with h | h
        · exact base e h ax x lo hi kw heq
        · obtain ⟨e', h3, h4⟩ := List.mem_map.mp h
          rw [heq] at h4
          cases h4
          exact absurd trivial (h2 _ h3)
  cases cbar
  · simp only [joint, Bool.false_eq_true, if_false]
    exact key _ (by intro e he; rw [List.mem_singleton.mp he]; exact fun h => h) _
  · simp only [joint, hb, Option.isSome_none, Bool.false_eq_true, if_false, if_true]
    refine key _ ?_ _
    intro e he
    simp only [List.mem_cons, List.not_mem_nil, or_false] at he
    rcases he with rfl | rfl <;> exact fun h => h

/-- violated: the caller's dictionary loses `cax` and `orientation`: the colour bar of a second joint plot made with it goes below that plot, horizontally -/
theorem C269_consumed (a a' : Axes4) (mx my mx' my' : Marg) (cbar : Bool) (b : BarKw) (k k' : Kw1) (hb : b.ax = none) :
    ∃ evs, (joint a' mx' my' true (joint a mx my cbar b k).bar k').evs = .mesh a'.h :: .bar a'.c "horizontal" :: evs := by
  have hm : ∀ a mx my k done bar, (marginals a mx my k done bar).bar = bar := by
    intro a mx my k done bar
    unfold marginals
    simp only []
    split
    · rfl
    · split <;> rfl
  have hpre : ∀ a mx my k done bar, ∃ t, (marginals a mx my k done bar).evs = done ++ t := by
    intro a mx my k done bar
    unfold marginals
    simp only []
    split
    · exact ⟨_, rfl⟩
    · split
      · exact ⟨_, rfl⟩
      · exact ⟨_, List.append_assoc _ _ _⟩
  have hleft : (joint a mx my cbar b k).bar = ⟨none, none, none⟩ := by
    unfold joint
    simp only [hb, Option.isSome_none, Bool.false_eq_true, if_false]
    split <;> rw [hm]
  rw [hleft]
  simp only [joint, Option.isSome_none, Bool.false_eq_true, if_false, if_true, Option.getD_none]
  obtain ⟨t, ht⟩ := hpre a' mx' my' k' [.mesh a'.h, .bar a'.c "horizontal"] ⟨none, none, none⟩
  exact ⟨t, by rw [ht]; rfl⟩

/-! ### C270 -/

/-- the options of the used observations and of the text box unless given -/
def trendUsed (k : TrendKw) : ObsKw := k.used.getD ⟨true, none, [], [("color", some "k")]⟩
def trendText (k : TrendKw) : Kw := k.annotate.getD [("xloc", some "0.5"), ("yloc", some "0.1"), ("va", some "bottom")]

/-- the trend with its residuals: raw and used parameters in the given style (plain lines by default), the fit above them, the text box, and both kinds of residuals in percent
(one if the fit kept no robust ones) -/
theorem C270_resid (raw used : Obs) (fit fitUsed : List Fl) (fn : Option (List Fl)) (k : TrendKw) (hu : Full (trendUsed k)) (wu : (trendUsed k).window = true)
    (hm : (trendUsed k).kw.lookup "markevery" ≠ some none) (nu : ∀ n ∈ ["ax", "drawstyle"], n ∉ (trendUsed k).kw.map Prod.fst) :
    ∃ r u : Out, ∃ kf c, trendResid raw used fit fitUsed fn k = ⟨⟨r.evs ++ u.evs ++ [.line raw.x fit kf], some (trendText k), none⟩, c⟩ ∧
      Windowed r raw ⟨true, none, [], []⟩ [sharedStyle (k.style.getD (some "default"))] rawDefaults (some "k") ∧
      Windowed u used (trendUsed k) (sharedStyle (k.style.getD (some "default")) :: (trendUsed k).kw) (usedDefaults used.x.length) (some "forestgreen") ∧
      Given kf [("zorder", some "2.2")] fitDefaults ∧
      FFP.plotResid used.y fitUsed fn true FFP.bothW [] {} = .ok c ∧ c.length = (if fn.isSome then 2 else 1) := by
  obtain ⟨r, u, kf, h, h1, h2, h3⟩ := C265_all raw used fit (k.style.getD (some "default")) true ⟨true, none, [], []⟩ (trendUsed k) [("zorder", some "2.2")] (trendText k)
    ⟨⟨by simp, by simp⟩, ⟨by simp, by simp⟩, by simp⟩ hu ⟨by simp, by simp [lineAlias]⟩ rfl wu hm (by simp) nu (by simp)
  have hres : ∃ c, FFP.plotResid used.y fitUsed fn true FFP.bothW [] {} = .ok c ∧ c.length = (if fn.isSome then 2 else 1) := by
    have hk : FFP.bothW.map Char.toLower = FFP.bothW := by decide
    have n1 : FFP.bothW ≠ FFP.simpleW := by decide
    have n2 : FFP.bothW ≠ FFP.robustW := by decide
    simp only [FFP.plotResid, hk, if_neg n1, if_neg n2, if_true, FFP.drawBoth, FFP.residuals, ne_eq, not_true_eq_false, if_false]
    cases fn with
    | none => exact ⟨_, rfl, rfl⟩
    | some f => exact ⟨_, rfl, rfl⟩
  obtain ⟨c, hc, hl⟩ := hres
  refine ⟨r, u, kf, c, ?_, h1, h2, h3, hc, hl⟩
  rw [← C265_zorder] at h
  unfold trendUsed trendText at h
  unfold trendResid trendText
  simp only [h, hc, if_true]

/-- violated: every other keyword (options of the raw data, of the fit or of the residuals, figure size, axes) is silently ignored -/
theorem C270_ignored (raw used : Obs) (fit fitUsed : List Fl) (fn : Option (List Fl)) (k : TrendKw) (others : Kw) :
    trendResid raw used fit fitUsed fn { k with others := others } = trendResid raw used fit fitUsed fn k := rfl

/-- violated: yet `ax` for the same plot under the 1-D parameters is a TypeError and nothing is drawn -/
theorem C270_ax (raw used : Obs) (fit fitUsed : List Fl) (fn : Option (List Fl)) (k : TrendKw) (v : Val) (p : List Fl × List Fl × List Fl) (q : PoptKw)
    (h : ("ax", v) ∈ k.others) : trendOnFuncs raw used fit fitUsed fn k p q = ⟨⟨[], none, some .typeError⟩, []⟩ := by
  unfold trendOnFuncs
  rw [if_pos (is_repeated (by simp) h)]

/-- the trend under the 1-D parameters: the parameters come last, residuals and text box are kept -/
theorem C270_last (raw used : Obs) (fit fitUsed : List Fl) (fn : Option (List Fl)) (k : TrendKw) (p : List Fl × List Fl × List Fl) (q : PoptKw)
    (h : "ax" ∉ k.others.map Prod.fst) (he : (trendResid raw used fit fitUsed fn k).top.err = none) :
    trendOnFuncs raw used fit fitUsed fn k p q = ⟨⟨(trendResid raw used fit fitUsed fn k).top.evs ++ (plotPopt q.window q.wkeyNone p.1 p.2.1 p.2.2 q.kw q.wkw).evs,
      (trendResid raw used fit fitUsed fn k).top.text, (plotPopt q.window q.wkeyNone p.1 p.2.1 p.2.2 q.kw q.wkw).err⟩, (trendResid raw used fit fitUsed fn k).resid⟩ := by
  unfold trendOnFuncs
  rw [if_neg (by rw [not_repeated (by simpa using h)]; simp)]
  simp only [he]

/-- the trend without residuals: the parameters come first; the fit is green unless given -/
theorem C270_first (raw used : Obs) (fit : List Fl) (x y w : List Fl) (q : PoptKw) (s : Val) (annotate : Bool) (ra ua : ObsKw) (fkw akw : Option Kw)
    (hq : Plain lineAlias q.kw) (hqw : Plain collAlias q.wkw) (h1 : q.window = true) (h2 : q.wkeyNone = false) (hr : Full ra) (hu : Full ua)
    (hf : ∀ f, fkw = some f → Plain lineAlias f)
    (wr : ra.window = true) (wu : ua.window = true) (hm : ua.kw.lookup "markevery" ≠ some none)
    (nr : ∀ n ∈ ["ax", "drawstyle"], n ∉ ra.kw.map Prod.fst) (nu : ∀ n ∈ ["ax", "drawstyle"], n ∉ ua.kw.map Prod.fst)
    (nf : ∀ f, fkw = some f → ∀ n ∈ ["ax", "annotate", "annotate_kwargs"], n ∉ f.map Prod.fst) :
    ∃ r u : Out, ∃ kp kb k, poptAndTrend raw used fit (x, y, w) q s annotate ra ua fkw akw =
        ⟨[.line x y kp, .band x (lower y w) (upper y w) kb] ++ (r.evs ++ u.evs ++ [.line raw.x fit k]), if annotate then some (akw.getD []) else none, none⟩ ∧
      Windowed r raw ra (sharedStyle s :: ra.kw) rawDefaults (some "k") ∧
      Windowed u used ua (sharedStyle s :: ua.kw) (usedDefaults used.x.length) (some "forestgreen") ∧
      Given k (fkw.getD [("color", some "limegreen")]) fitDefaults ∧ kp.lookup "color" = some ((q.kw.lookup "color").getD (some "cyan")) := by
  obtain ⟨kp, kb, hp, hc, -⟩ := C263_window x y w q.kw q.wkw hq hqw
  have pf : Plain lineAlias (fkw.getD [("color", some "limegreen")]) := by
    cases fkw with
    | none => exact ⟨by simp, by simp [lineAlias]⟩
    | some f => exact hf f rfl
  have nf' : ∀ n ∈ ["ax", "annotate", "annotate_kwargs"], n ∉ (fkw.getD [("color", some "limegreen")]).map Prod.fst := by
    cases fkw with
    | none => simp
    | some f => exact nf f rfl
  obtain ⟨r, u, k, h, hr1, hu1, hk⟩ := C265_all raw used fit s annotate ra ua (fkw.getD [("color", some "limegreen")]) (akw.getD []) hr hu pf wr wu hm nr nu nf'
  refine ⟨r, u, kp, kb, k, ?_, hr1, hu1, hk, hc⟩
  simp only [poptAndTrend, h1, h2, hp, h]

/-- if drawing the 1-D parameters raises, the exception is that one, what they had drawn stays and neither the trend nor a text box is added; with a window and
disabled uncertainties that is a NotImplementedError and an empty figure -/
theorem C270_stops (raw used : Obs) (fit : List Fl) (x y w : List Fl) (q : PoptKw) (s : Val) (annotate : Bool) (ra ua : ObsKw) (fkw akw : Option Kw) :
    (∀ e, (plotPopt q.window q.wkeyNone x y w q.kw q.wkw).err = some e →
      poptAndTrend raw used fit (x, y, w) q s annotate ra ua fkw akw = ⟨(plotPopt q.window q.wkeyNone x y w q.kw q.wkw).evs, none, some e⟩) ∧
    (q.window = true → q.wkeyNone = true → Plain lineAlias q.kw →
      poptAndTrend raw used fit (x, y, w) q s annotate ra ua fkw akw = ⟨[], none, some .notImplemented⟩) := by
  constructor
  · intro e h
    simp only [poptAndTrend, h]
  · intro h1 h2 hk
    simp only [poptAndTrend, h1, h2, C263_no_wkey x y w q.kw q.wkw hk]

/-- cases that meet the hypotheses -/
example : Full (trendUsed ⟨none, none, none, []⟩) ∧ (trendUsed ⟨none, none, none, []⟩).window = true ∧
    (∀ n ∈ ["ax", "drawstyle"], n ∉ (trendUsed ⟨none, none, none, []⟩).kw.map Prod.fst) :=
  ⟨⟨⟨by simp [trendUsed], by simp [trendUsed, lineAlias]⟩, ⟨by simp [trendUsed], by simp [trendUsed]⟩, by simp [trendUsed]⟩, rfl, by simp [trendUsed]⟩

example : ∃ kx ky, joint ⟨1, 2, 3, 4⟩ ⟨[.fin 1], [.fin 2], none⟩ ⟨[.fin 5], [.nan], none⟩ true ⟨some 9, none, none⟩ ⟨false, false, none, [], [("color", some "red")]⟩ =
    ⟨[.mesh 1, .bar 9 "horizontal", .curve 2 (.errorbar [.fin 1] [.fin 2] none none kx), .curve 3 (.errorbar [.nan] [.fin 5] none none ky)], none, ⟨none, none, none⟩⟩ ∧
    kx.lookup "color" = some (some "red") := by
  obtain ⟨kx, ky, h, hx, -⟩ := C269_all ⟨1, 2, 3, 4⟩ ⟨[.fin 1], [.fin 2], none⟩ ⟨[.fin 5], [.nan], none⟩ true ⟨some 9, none, none⟩
    ⟨false, false, none, [], [("color", some "red")]⟩ rfl rfl rfl ⟨by simp, by simp [lineAlias]⟩
  exact ⟨kx, ky, h, by rw [hx.2 _ (by simp)]; rfl⟩

end Draw
end SW
