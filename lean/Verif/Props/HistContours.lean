import Verif.Props.Contours
import Verif.Props.JointDraw
import Verif.HistContours

/-!
# C273, C274: a histogram with contours on top
-/

namespace SW
namespace Contour

open Draw (Kw Val pop repeated BarKw)

/-! ### Specification -/

/-- where the colour bar goes: the named axes, else those of the plot -/
def barPlace (ax : Nat) (b : BarKw) : Nat := (b.cax.orElse fun _ => b.ax).getD ax

/-- nothing in the way of a complete plot: a norm to limit if limits are asked for, known normalisation or given levels, no repeated keyword, not both `ax` and `cax` -/
structure Fine (c : HCall) (d : Dicts) : Prop where
  limit : c.limit = true → c.axnorm ≠ some "c" → c.axnorm ≠ some "r" → meshNorm c.axnorm c.norm ≠ .none
  cmap : ∀ e ∈ d.contour, e.1 ≠ "cmap" ∧ e.1 ≠ "norm"
  place : d.bar.cax = none ∨ d.bar.ax = none

theorem limited_ok {c : HCall} {d : Dicts} (h : Fine c d) : ∃ lim, limited c.axnorm (meshNorm c.axnorm c.norm) c.limit = .ok lim := by
  unfold limited
  by_cases h1 : (!c.limit) = true ∨ c.axnorm = some "c" ∨ c.axnorm = some "r"
  · exact ⟨_, if_pos h1⟩
  · rw [if_neg h1]
    push Not at h1
    have := h.limit (by simpa using h1.1) h1.2.1 h1.2.2
    exact ⟨true, if_neg this⟩

theorem not_repeated {ks : List String} {d : Kw} (h : ∀ e ∈ d, e.1 ∉ ks) : repeated ks d = false := by
  unfold repeated
  simp only [List.any_eq_false, decide_eq_true_eq]
  intro k hk hm
  obtain ⟨e, he, rfl⟩ := List.mem_map.mp hm
  exact h e he hk

theorem drawBar_ok (ax : Nat) (o : HOut) (h : o.dicts.bar.cax = none ∨ o.dicts.bar.ax = none) :
    (drawBar ax o).evs = o.evs ++ [.bar (barPlace ax o.dicts.bar) o.dicts.bar.orientation] ∧ (drawBar ax o).err = o.err ∧
    (drawBar ax o).dicts.contour = o.dicts.contour ∧ (drawBar ax o).dicts.clabel = o.dicts.clabel := by
  unfold drawBar barPlace
  rcases o with ⟨evs, err, ⟨ct, cl, ⟨cax, bax, ori⟩⟩⟩
  rcases cax with _ | a <;> rcases bax with _ | b <;> simp_all

/-- what one call draws, given the levels used and the ones labelled -/
noncomputable def expected (c : HCall) (lim : Bool) (auto : List ℝ) (lv : Levels) (labels : List ℝ) (d : Dicts) : List HEv :=
  [.mesh (meshNorm c.axnorm c.norm) lim c.cmap c.kw,
   .contours c.filled (drawnLevels auto lv) (d.contour.lookup "linestyles") (meshNorm c.axnorm c.norm) lim c.cmap
     (pop "linestyles" none d.contour).2] ++
  (if c.labelLevels then [.labels labels (labelOpts d.clabel).1 (labelOpts d.clabel).2] else []) ++
  (if c.cbar then [.bar (barPlace c.ax d.bar) d.bar.orientation] else [])

/-- the histogram, the contours with the same norm and the same colour map, their labels if asked for, and the colour bar, in this order -/
theorem C273_all (c : HCall) (auto : List ℝ) (d : Dicts) (hf : Fine c d) (lv : Levels) (hl : levelsOf c.axnorm c.levels = .ok lv) (labels : List ℝ)
    (hb : c.labelLevels = true → labelsOf auto c.skipMax lv = .ok labels) :
    ∃ lim, limited c.axnorm (meshNorm c.axnorm c.norm) c.limit = .ok lim ∧ (histContours c auto d).err = none ∧ (histContours c auto d).evs = expected c lim auto lv labels d := by
  obtain ⟨lim, hlim⟩ := limited_ok hf
  refine ⟨lim, hlim, ?_⟩
  have nr : repeated ["cmap", "norm"] (pop "linestyles" none d.contour).2 = false := by
    apply not_repeated
    intro e he
    simp only [pop, List.mem_filter] at he
    have := hf.cmap e he.1
    simp [this.1, this.2]
  unfold histContours expected
  simp only [hlim, hl, nr]
  unfold finish
  by_cases h1 : c.labelLevels = true
  · simp only [h1, if_true, hb h1]
    by_cases h2 : c.cbar = true
    · simp only [h2, if_true, Bool.false_eq_true, if_false]
      obtain ⟨a, b, -, -⟩ := drawBar_ok c.ax ⟨[HEv.mesh (meshNorm c.axnorm c.norm) lim c.cmap c.kw] ++
        [HEv.contours c.filled (drawnLevels auto lv) (d.contour.lookup "linestyles") (meshNorm c.axnorm c.norm) lim c.cmap
          (pop "linestyles" none d.contour).2] ++ [HEv.labels labels (labelOpts d.clabel).1 (labelOpts d.clabel).2], none,
        ⟨(pop "linestyles" none d.contour).2, (labelOpts d.clabel).2, d.bar⟩⟩ hf.place
      exact ⟨b, by rw [a]; simp⟩
    · simp [h2]
  · simp only [h1]
    by_cases h2 : c.cbar = true
    · simp only [h2, if_true, Bool.false_eq_true, if_false]
      obtain ⟨a, b, -, -⟩ := drawBar_ok c.ax ⟨[HEv.mesh (meshNorm c.axnorm c.norm) lim c.cmap c.kw] ++
        [HEv.contours c.filled (drawnLevels auto lv) (d.contour.lookup "linestyles") (meshNorm c.axnorm c.norm) lim c.cmap
          (pop "linestyles" none d.contour).2], none,
        ⟨(pop "linestyles" none d.contour).2, d.clabel, d.bar⟩⟩ hf.place
      exact ⟨b, by rw [a]; simp⟩
    · simp [h2]

/-- the levels: the caller's; else the defaults of the normalisation, if it has some, else matplotlib's; the labelled ones are exactly the drawn ones, without the highest if
`skip_max_clbl` -/
theorem C273_levels (axnorm : Option String) (l auto : List ℝ) (skip : Bool) (hi : Incr l) :
    levelsOf axnorm (.list l) = .ok (.list l) ∧ drawnLevels auto (.list l) = l ∧
    (∀ lb, labelsOf auto skip (.list l) = .ok lb → ∀ v, v ∈ lb ↔ Wanted skip l v) ∧
    (Hist.contourLevels axnorm none = .ok (some l) → levelsOf axnorm .none = .ok (.list l)) := by
  refine ⟨rfl, rfl, fun lb h v => ?_, fun h => by simp [levelsOf, h]⟩
  simp only [labelsOf] at h
  cases h
  exact labelled_iff hi skip v

/-- the norm: the caller's (None: matplotlib's); else by tenths for rows or columns, logarithmic for densities, matplotlib's for the rest -/
theorem C273_norm (axnorm : Option String) :
    (∀ n, meshNorm axnorm (some (some n)) = .own n) ∧ meshNorm axnorm (some none) = .none ∧
    (meshNorm axnorm none = .tenths ↔ axnorm = some "c" ∨ axnorm = some "r") ∧
    (meshNorm axnorm none = .log ↔ axnorm = some "d" ∨ axnorm = some "cd" ∨ axnorm = some "rd") := by
  refine ⟨fun _ => rfl, rfl, ?_, ?_⟩
  · unfold meshNorm
    simp only []
    split
    · simp_all
    · split <;> simp_all
  · unfold meshNorm
    simp only []
    split
    · rename_i h
      rcases h with rfl | rfl <;> simp
    · split <;> simp_all

/-- violated: limits of the colours for counts or the total normalisation, where no norm is the default, are an AttributeError and nothing is drawn -/
theorem C273_limit (c : HCall) (auto : List ℝ) (d : Dicts) (h : c.limit = true) (ha : c.axnorm = none ∨ c.axnorm = some "t") (hn : c.norm = none ∨ c.norm = some none) :
    (histContours c auto d).evs = [] ∧ (histContours c auto d).err = some .attributeError := by
  have e : limited c.axnorm (meshNorm c.axnorm c.norm) c.limit = .error .attributeError := by
    rcases ha with ha | ha <;> rcases hn with hn | hn <;> rw [ha, hn, h] <;> simp [limited, meshNorm]
  unfold histContours
  simp [e]

/-- violated: `cmap` or `norm` in `contour_kwargs` is a TypeError that leaves the bare histogram -/
theorem C273_cmap (c : HCall) (auto : List ℝ) (d : Dicts) (hc : c.limit = false) (lv : Levels) (hl : levelsOf c.axnorm c.levels = .ok lv)
    (h : ∃ e ∈ d.contour, e.1 = "cmap" ∨ e.1 = "norm") :
    (histContours c auto d).evs = [.mesh (meshNorm c.axnorm c.norm) false c.cmap c.kw] ∧ (histContours c auto d).err = some .typeError := by
  have e : limited c.axnorm (meshNorm c.axnorm c.norm) c.limit = .ok false := by simp [limited, hc]
  have r : repeated ["cmap", "norm"] (pop "linestyles" none d.contour).2 = true := by
    obtain ⟨x, hx, h⟩ := h
    unfold repeated
    simp only [List.any_eq_true, decide_eq_true_eq]
    refine ⟨x.1, by rcases h with h | h <;> simp [h], List.mem_map_of_mem ?_⟩
    simp only [pop, List.mem_filter, decide_eq_true_eq]
    exact ⟨hx, by rcases h with h | h <;> rw [h] <;> decide⟩
  unfold histContours
  simp [e, hl, r]

theorem drawBar_contour (ax : Nat) (o : HOut) : (drawBar ax o).dicts.contour = o.dicts.contour ∧ (drawBar ax o).dicts.clabel = o.dicts.clabel := by
  unfold drawBar
  rcases o with ⟨evs, err, ⟨ct, cl, ⟨cax, bax, ori⟩⟩⟩
  rcases cax with _ | a <;> rcases bax with _ | b <;> simp

theorem finish_contour (c : HCall) (auto : List ℝ) (lv : Levels) (o : HOut) :
    (finish c auto lv o).dicts.contour = o.dicts.contour ∧
    (finish c auto lv o).dicts.clabel = if c.labelLevels then (labelOpts o.dicts.clabel).2 else o.dicts.clabel := by
  unfold finish
  by_cases h1 : c.labelLevels = true
  · simp only [h1, if_true]
    cases labelsOf auto c.skipMax lv with
    | error e => simp
    | ok l =>
      simp only []
      split
      · simp [drawBar_contour]
      · simp
  · simp only [h1, Bool.false_eq_true, if_false]
    split
    · simp [drawBar_contour]
    · simp

/-- violated: the dictionary loses the style of the contours; a second plot with it draws the default styles -/
theorem C273_style (c c' : HCall) (auto auto' : List ℝ) (d : Dicts) (lim : Bool) (h : limited c.axnorm (meshNorm c.axnorm c.norm) c.limit = .ok lim) (lv : Levels)
    (hl : levelsOf c.axnorm c.levels = .ok lv) :
    (∀ v, ("linestyles", v) ∉ (histContours c auto d).dicts.contour) ∧
    ∀ e ∈ (histContours c' auto' (histContours c auto d).dicts).evs, ∀ f ls st n li cm k, e = .contours f ls st n li cm k → st = none := by
  have key : (histContours c auto d).dicts.contour = (pop "linestyles" none d.contour).2 := by
    unfold histContours
    simp only [h, hl]
    split
    · rfl
    · rw [(finish_contour _ _ _ _).1]
  have no : ∀ v, ("linestyles", v) ∉ (histContours c auto d).dicts.contour := by
    intro v hv
    rw [key] at hv
    simp [pop] at hv
  refine ⟨no, ?_⟩
  generalize (histContours c auto d).dicts = d' at no
  have na : d'.contour.lookup "linestyles" = none := by
    rw [List.lookup_eq_none_iff]
    rintro ⟨k, v⟩ hm
    simp only [bne_iff_ne, ne_eq, beq_eq_false_iff_ne]
    rintro rfl
    exact no v hm
  have bar : ∀ ax o e, e ∈ (drawBar ax o).evs → e ∈ o.evs ∨ ∃ a b, e = .bar a b := by
    intro ax o e he
    unfold drawBar at he
    rcases o with ⟨evs, err, ⟨ct, cl, ⟨cax, bax, ori⟩⟩⟩
    rcases cax with _ | a <;> rcases bax with _ | b <;> simp only [List.mem_append, List.mem_singleton] at he
    · exact he.imp id fun h => ⟨_, _, h⟩
    · exact he.imp id fun h => ⟨_, _, h⟩
    · exact he.imp id fun h => ⟨_, _, h⟩
    · exact Or.inl he
  have fin : ∀ lv o e, e ∈ (finish c' auto' lv o).evs → e ∈ o.evs ∨ (∃ a b, e = .bar a b) ∨ ∃ a b k, e = .labels a b k := by
    intro lv o e he
    unfold finish at he
    split at he
    · simp only [] at he
      split at he
      · exact Or.inl he
      · split at he
        · rcases bar _ _ _ he with he | he
          · simp only [List.mem_append, List.mem_singleton] at he
            exact he.imp id fun h => Or.inr ⟨_, _, _, h⟩
          · exact Or.inr (Or.inl he)
        · simp only [List.mem_append, List.mem_singleton] at he
          exact he.imp id fun h => Or.inr ⟨_, _, _, h⟩
    · split at he
      · rcases bar _ _ _ he with he | he
        · exact Or.inl he
        · exact Or.inr (Or.inl he)
      · exact Or.inl he
  intro e he f ls st n li cm k hek
  subst hek
  unfold histContours at he
  simp only [] at he
  split at he
  · cases he
  · split at he
    · simp at he
    · rw [na] at he
      split at he
      · simp at he
      · rcases fin _ _ _ he with he | ⟨a, b, he⟩ | ⟨a, b, k, he⟩
        · simp at he
          exact he.2.2.1
        · cases he
        · cases he

/-- the label options are taken out of the dictionary only if labels are drawn (`plot_contours` always does) -/
theorem C273_label_options (c : HCall) (auto : List ℝ) (d : Dicts) (hf : Fine c d) (lv : Levels) (hl : levelsOf c.axnorm c.levels = .ok lv) :
    (histContours c auto d).dicts.clabel = if c.labelLevels then (labelOpts d.clabel).2 else d.clabel := by
  obtain ⟨lim, hlim⟩ := limited_ok hf
  have nr : repeated ["cmap", "norm"] (pop "linestyles" none d.contour).2 = false := by
    apply not_repeated
    intro e he
    simp only [pop, List.mem_filter] at he
    have := hf.cmap e he.1
    simp [this.1, this.2]
  unfold histContours
  simp only [hlim, hl, nr, Bool.false_eq_true, if_false]
  rw [(finish_contour _ _ _ _).2]

/-- violated: with a number of levels (documented) the highest is labelled although it should be skipped, and labelling all is a TypeError after histogram and contours are
drawn, without a colour bar -/
theorem C273_count (c : HCall) (auto : List ℝ) (d : Dicts) (hf : Fine c d) (n : Nat) (hn : c.levels = .count n) (hb : c.labelLevels = true) :
    (c.skipMax = true → ∃ e ∈ (histContours c auto d).evs, ∃ o k, e = .labels auto o k) ∧
    (c.skipMax = false → (histContours c auto d).err = some .typeError ∧ (histContours c auto d).evs.length = 2) := by
  have hl : levelsOf c.axnorm c.levels = .ok (.count n) := by rw [hn]; rfl
  constructor
  · intro hs
    obtain ⟨lim, -, -, h⟩ := C273_all c auto d hf _ hl auto (fun _ => by simp [labelsOf, hs])
    refine ⟨.labels auto (labelOpts d.clabel).1 (labelOpts d.clabel).2, ?_, _, _, rfl⟩
    rw [h]
    simp [expected, hb]
  · intro hs
    obtain ⟨lim, hlim⟩ := limited_ok hf
    have nr : repeated ["cmap", "norm"] (pop "linestyles" none d.contour).2 = false := by
      apply not_repeated
      intro e he
      simp only [pop, List.mem_filter] at he
      have := hf.cmap e he.1
      simp [this.1, this.2]
    unfold histContours
    simp only [hlim, hl, nr, Bool.false_eq_true, if_false]
    unfold finish
    simp [hb, labelsOf, hs]

/-- the colour bar: on the named axes, else on those of the plot, and then the caller's dictionary remembers them; both `ax` and `cax` are a ValueError -/
theorem C273_bar (ax : Nat) (o : HOut) :
    (o.dicts.bar.cax = none → o.dicts.bar.ax = none → (drawBar ax o).dicts.bar.ax = some ax ∧ (drawBar ax o).evs = o.evs ++ [.bar ax o.dicts.bar.orientation]) ∧
    (o.dicts.bar.cax ≠ none → o.dicts.bar.ax ≠ none → (drawBar ax o).err = some .valueError ∧ (drawBar ax o).evs = o.evs) := by
  unfold drawBar
  rcases o with ⟨evs, err, ⟨ct, cl, ⟨cax, bax, ori⟩⟩⟩
  rcases cax with _ | a <;> rcases bax with _ | b <;> simp

/-! ### C274 -/

/-- violated: `limit_color_norm`, documented for contour plots, has no effect whatever -/
theorem C274_limit (axnorm : Option String) (norm : Option (Option String)) (levels : Levels) (auto : List ℝ) (lab skip : Bool) (ckw : Kw) :
    contoursOnly axnorm norm true levels auto lab skip ckw = contoursOnly axnorm norm false levels auto lab skip ckw := rfl

/-- violated: a number of levels is a TypeError unless there is a norm (given, or by tenths for rows and columns) -/
theorem C274_count (axnorm : Option String) (norm : Option (Option String)) (limit : Bool) (n : Nat) (auto : List ℝ) (lab skip : Bool) (ckw : Kw) :
    ((norm = some none ∨ norm = none ∧ axnorm ≠ some "c" ∧ axnorm ≠ some "r") → contoursOnly axnorm norm limit (.count n) auto lab skip ckw = .error .typeError) ∧
    (∀ p, contoursOnly axnorm norm limit (.count n) auto lab skip ckw = .ok p → p.drawn = auto ∧ (lab = false → p.labels = []) ∧ (lab = true → skip = true ∧ p.labels = auto)) := by
  constructor
  · rintro (rfl | ⟨rfl, h1, h2⟩)
    · rfl
    · simp [contoursOnly, firstNorm, h1, h2]
  · intro p h
    unfold contoursOnly at h
    simp only [] at h
    split at h
    · cases h
    · cases lab <;> cases skip <;> simp at h <;> subst h <;> simp

/-- lists of levels and none at all: as in C266 -/
theorem C274_list (axnorm : Option String) (norm : Option (Option String)) (limit : Bool) (l auto : List ℝ) (skip : Bool) (ckw : Kw) (hi : Incr l) :
    ∃ p, contoursOnly axnorm norm limit (.list l) auto true skip ckw = .ok p ∧ p.drawn = l ∧ ∀ v, v ∈ p.labels ↔ Wanted skip l v :=
  C266_labels axnorm norm (some l) l auto skip ckw rfl hi

/-- a complete plot: column normalised, with labels and colour bar -/
example : Fine ⟨3, some "c", none, none, true, .none, true, true, true, true, []⟩ ⟨[("linestyles", some "-"), ("colors", some "k")], [("fmt", some "%d")], ⟨none, some 7, none⟩⟩ :=
  ⟨fun _ h => absurd rfl h, fun e he => by simp at he; rcases he with rfl | rfl <;> decide, Or.inl rfl⟩

/-- increasing levels: those of the total normalisation -/
example : ∃ l : List ℝ, Hist.contourLevels (some "t") none = .ok (some l) ∧ Incr l :=
  ⟨_, rfl, by simp [Incr]; norm_num⟩

end Contour
end SW
