import Verif.Props.FitCore
import Verif.Props.PlasmaThermo
import Verif.FitGuess
import Verif.FitRun
import Mathlib.Tactic.IntervalCases

/-!
# Property C227: fits and the order of the samples

The same measurements listed in another order: which of them are used, the initial guess, the objective and the statistics of the fit.
-/

namespace SW
noncomputable section
open Classical

/-! ### Specification: samples are points; data arrays are their columns -/

/-- abscissas of the samples -/
def col1 (p : List (Fl × Fl)) : List Fl := p.map (·.1)
/-- ordinates of the samples -/
def col2 (p : List (Fl × Fl)) : List Fl := p.map (·.2)

/-! ### numpy and order -/

theorem npSum_perm {a b : List Fl} (h : a.Perm b) : npSum a = npSum b := Fl.sumAll_perm h

theorem npMean_perm {a b : List Fl} (h : a.Perm b) : npMean a = npMean b := by
  unfold npMean; rw [npSum_perm h, h.length_eq]

theorem maximum_fin (a b : ℝ) : Fl.maximum (.fin a) (.fin b) = .fin (max a b) := by
  unfold Fl.maximum
  rw [if_neg (by simp [Fl.isNaN])]
  by_cases h : a ≤ b
  · rw [if_pos ((Fl.le_fin a b).mpr h), max_eq_right h]
  · rw [if_neg (fun h' => h ((Fl.le_fin a b).mp h')), max_eq_left (not_le.mp h).le]

theorem minimum_fin (a b : ℝ) : Fl.minimum (.fin a) (.fin b) = .fin (min a b) := by
  unfold Fl.minimum
  rw [if_neg (by simp [Fl.isNaN])]
  by_cases h : a ≤ b
  · rw [if_pos ((Fl.le_fin a b).mpr h), min_eq_left h]
  · rw [if_neg (fun h' => h ((Fl.le_fin a b).mp h')), min_eq_right (not_le.mp h).le]

theorem maximum_inf (a b : Fl) : Fl.maximum a b = match a, b with
    | .nan, _ => .nan | _, .nan => .nan | .pinf, _ => .pinf | _, .pinf => .pinf | .ninf, b => b | a, .ninf => a
    | .fin a, .fin b => .fin (max a b) := by
  cases a <;> cases b <;> first
    | exact maximum_fin _ _
    | simp [Fl.maximum, Fl.isNaN, Fl.le]

theorem minimum_inf (a b : Fl) : Fl.minimum a b = match a, b with
    | .nan, _ => .nan | _, .nan => .nan | .ninf, _ => .ninf | _, .ninf => .ninf | .pinf, b => b | a, .pinf => a
    | .fin a, .fin b => .fin (min a b) := by
  cases a <;> cases b <;> first
    | exact minimum_fin _ _
    | simp [Fl.minimum, Fl.isNaN, Fl.le]

theorem maximum_comm (a b : Fl) : Fl.maximum a b = Fl.maximum b a := by
  rw [maximum_inf, maximum_inf]; cases a <;> cases b <;> first | rfl | exact congrArg Fl.fin (max_comm _ _)

theorem minimum_comm (a b : Fl) : Fl.minimum a b = Fl.minimum b a := by
  rw [minimum_inf, minimum_inf]; cases a <;> cases b <;> first | rfl | exact congrArg Fl.fin (min_comm _ _)

theorem maximum_assoc (a b c : Fl) : Fl.maximum (Fl.maximum a b) c = Fl.maximum a (Fl.maximum b c) := by
  simp only [maximum_inf]; cases a <;> cases b <;> cases c <;> first | rfl | exact congrArg Fl.fin (max_assoc _ _ _)

theorem minimum_assoc (a b c : Fl) : Fl.minimum (Fl.minimum a b) c = Fl.minimum a (Fl.minimum b c) := by
  simp only [minimum_inf]; cases a <;> cases b <;> cases c <;> first | rfl | exact congrArg Fl.fin (min_assoc _ _ _)

theorem fold_perm (f : Fl → Fl → Fl) (hc : ∀ a b, f a b = f b a) (ha : ∀ a b c, f (f a b) c = f a (f b c)) (g : List Fl → Fl)
    (g0 : g [] = .nan) (g1 : ∀ a l, g (a :: l) = l.foldl f a) {a b : List Fl} (h : a.Perm b) : g a = g b := by
  have hr : ∀ x y z, f (f x y) z = f (f x z) y := fun x y z => by rw [ha, ha, hc y z]
  have key : ∀ (l m : List Fl), l.Perm m → ∀ s, l.foldl f s = m.foldl f s := by
    intro l m h
    induction h with
    | nil => intro s; rfl
    | cons x _ ih => intro s; exact ih _
    | swap x y l => intro s; show l.foldl f (f (f s y) x) = l.foldl f (f (f s x) y); rw [hr]
    | trans _ _ h1 h2 => intro s; rw [h1, h2]
  induction h with
  | nil => rfl
  | cons x h _ => rw [g1, g1]; exact key _ _ h x
  | swap x y l => rw [g1, g1]; show l.foldl f (f y x) = l.foldl f (f x y); rw [hc]
  | trans _ _ h1 h2 => exact h1.trans h2

theorem npMax_perm {a b : List Fl} (h : a.Perm b) : npMax a = npMax b :=
  fold_perm _ maximum_comm maximum_assoc npMax rfl (fun _ _ => rfl) h

theorem npMin_perm {a b : List Fl} (h : a.Perm b) : npMin a = npMin b :=
  fold_perm _ minimum_comm minimum_assoc npMin rfl (fun _ _ => rfl) h

theorem fl_antisymm (x y : Fl) (h1 : Fl.le x y) (h2 : Fl.le y x) : x = y := by
  cases x <;> cases y <;> first
    | rfl
    | exact congrArg Fl.fin (le_antisymm ((Fl.le_fin _ _).mp h1) ((Fl.le_fin _ _).mp h2))
    | (simp [Fl.le] at h1 h2)

theorem npMedian_perm {a b : List Fl} (h : a.Perm b) : npMedian a = npMedian b := by
  unfold npMedian
  have h1 : (a = [] ∨ ∃ x ∈ a, x.isNaN) ↔ (b = [] ∨ ∃ x ∈ b, x.isNaN) := by
    have : a = [] ↔ b = [] := ⟨fun e => by subst e; exact h.nil_eq.symm, fun e => by subst e; exact h.eq_nil⟩
    rw [this]
    simp only [h.mem_iff]
  by_cases hc : b = [] ∨ ∃ x ∈ b, x.isNaN
  · rw [if_pos hc, if_pos (h1.mpr hc)]
  · rw [if_neg hc, if_neg (fun h' => hc (h1.mp h'))]
    have hb : ∀ x ∈ b, ¬ x.isNaN := fun x hx hn => hc (Or.inr ⟨x, hx, hn⟩)
    have hs : a.mergeSort (fun a b => decide (Fl.le a b)) = b.mergeSort (fun a b => decide (Fl.le a b)) := by
      obtain ⟨r, hr⟩ : ∃ r : Fl → Fl → Bool, r = fun x y => decide (x.isNaN ∨ Fl.le x y) := ⟨_, rfl⟩
      have tr : ∀ x y z : Fl, r x y = true → r y z = true → r x z = true := by
        intro x y z
        simp only [hr, decide_eq_true_eq]
        cases x <;> cases y <;> cases z <;> simp only [Fl.le, Fl.isNaN] <;> intro h1 h2 <;>
          simp only [or_true, true_or, or_false, false_or] at * <;> linarith
      have tot : ∀ x y : Fl, (r x y || r y x) = true := by
        intro x y
        simp only [hr, Bool.or_eq_true, decide_eq_true_eq]
        cases x <;> cases y <;> simp only [Fl.le, Fl.isNaN, or_true, true_or, or_false, false_or]
        exact le_total _ _
      have cong : ∀ l : List Fl, (∀ x ∈ l, ¬ x.isNaN) → l.mergeSort (fun a b => decide (Fl.le a b)) = l.mergeSort r := by
        intro l hl
        have := List.map_mergeSort (f := id) (l := l) (r := fun a b => decide (Fl.le a b)) (s := r) (by
          intro x hx y _
          simp only [hr, id, hl x hx, false_or])
        simpa using this
      have ha : ∀ x ∈ a, ¬ x.isNaN := fun x hx => hb x (h.mem_iff.mp hx)
      rw [cong a ha, cong b hb]
      apply List.Perm.eq_of_pairwise ?_ (List.pairwise_mergeSort tr tot a) (List.pairwise_mergeSort tr tot b)
        ((List.mergeSort_perm a r).trans (h.trans (List.mergeSort_perm b r).symm))
      intro x y hx hy
      have hx := ha x ((List.mergeSort_perm a r).mem_iff.mp hx)
      have hy := hb y ((List.mergeSort_perm b r).mem_iff.mp hy)
      simp only [hr, decide_eq_true_eq, hx, hy, false_or]
      exact fl_antisymm x y
    simp only [h.length_eq, hs]

theorem npNanMedian_perm {a b : List Fl} (h : a.Perm b) : npNanMedian a = npNanMedian b := npMedian_perm (h.filter _)

theorem selBy1 (p : Fl → Prop) (d : List (Fl × Fl)) : selBy p (col1 d) (col1 d) = col1 (d.filter (fun q => decide (p q.1))) := by
  unfold selBy col1; rw [List.map_map]; exact compress_map d (fun q => decide (p q.1)) _

theorem selBy2 (p : Fl → Prop) (d : List (Fl × Fl)) : selBy p (col1 d) (col2 d) = col2 (d.filter (fun q => decide (p q.1))) := by
  unfold selBy col1 col2; rw [List.map_map]; exact compress_map d (fun q => decide (p q.1)) _

theorem col1_perm {d e : List (Fl × Fl)} (h : d.Perm e) : (col1 d).Perm (col1 e) := h.map _
theorem col2_perm {d e : List (Fl × Fl)} (h : d.Perm e) : (col2 d).Perm (col2 e) := h.map _

theorem length1 {d e : List (Fl × Fl)} (h : d.Perm e) : (col1 d).length = (col1 e).length := (col1_perm h).length_eq

theorem wMean_perm {d e : List (Fl × Fl)} (h : d.Perm e) : wMean (col1 d) (col2 d) = wMean (col1 e) (col2 e) := by
  unfold wMean
  rw [npSum_perm (col2_perm h)]
  unfold col1 col2
  rw [zipWith_same, zipWith_same, npSum_perm (h.map _)]

theorem wVar_perm {d e : List (Fl × Fl)} (h : d.Perm e) : wVar (col1 d) (col2 d) = wVar (col1 e) (col2 e) := by
  unfold wVar
  rw [npSum_perm (col2_perm h), wMean_perm h]
  generalize wMean (col1 e) (col2 e) = M
  unfold col1 col2
  rw [zipWith_same, zipWith_same, npSum_perm (h.map _)]

/-! ### Which samples are used -/

/-- a sample with its weight -/
abbrev Row := Fl × Fl × Fl

/-- the arrays made of rows -/
def arr (f : Row → Fl) (rows : List Row) : NArr := NArr.of (rows.map f)

theorem setFitObs_rows (L : Limits) (rows : List Row) :
    setFitObs (arr (·.1) rows) (arr (·.2.1) rows) (some (arr (·.2.2) rows)) L =
      if GoodPair L.xoutside ∧ GoodPair L.youtside then
        let u := rows.filter (fun q => decide (Selected L q.1 q.2.1 (some q.2.2)))
        .ok { used := ⟨u.map (·.1), u.map (·.2.1), some (u.map (·.2.2))⟩,
              raw := ⟨rows.map (·.1), rows.map (·.2.1), some (rows.map (·.2.2))⟩,
              mask := rows.map (fun q => decide (Selected L q.1 q.2.1 (some q.2.2))) }
      else .error .assertionError := by
  unfold setFitObs
  have s0 : ∀ f g : Row → Fl, (arr f rows).shape = (arr g rows).shape := fun f g => by simp [arr, NArr.of]
  rw [if_neg (by simp), if_neg (by simp [s0 (·.1) (·.2.1)]), if_neg (by rintro ⟨w', h1, h2⟩; cases h1; exact h2 (s0 _ _))]
  have hd : ∀ f : Row → Fl, (arr f rows).data = rows.map f := fun f => rfl
  have ew : (if L.logy = true then List.zipWith (fun a b => a / (b * .fin (Real.log 10))) (rows.map (·.2.2)) (rows.map (·.2.1))
      else rows.map (·.2.2)) = rows.map (fun q : Row => selWeight L.logy q.2.2 q.2.1) := by
    unfold selWeight
    cases L.logy
    · rfl
    · simp only [if_true]; rw [zipWith_same]
  simp only [hd, oneObsMask_map, outsideMask_map, bind, Except.bind, pure, Except.pure, Option.map_some, ew]
  by_cases hx : GoodPair L.xoutside
  · by_cases hy : GoodPair L.youtside
    · simp only [if_pos hx, if_pos hy, zipWith_same, and_self]
      rw [if_pos ⟨hx, hy⟩]
      have hm : (fun q : Row => decide (Within L.xmin L.xmax q.1) && decide (Within L.ymin L.ymax q.2.1) && decide (Outside L.xoutside q.1) &&
          decide (Outside L.youtside q.2.1) && decide (Within L.wmin L.wmax (selWeight L.logy q.2.2 q.2.1)))
          = fun q : Row => decide (Selected L q.1 q.2.1 (some q.2.2)) := by
        funext q
        unfold Selected
        simp [Bool.and_assoc]
      rw [hm]
      simp only [compress_map]
    · simp only [if_pos hx, if_neg hy]
      rw [if_neg (fun h => hy h.2)]
  · simp only [if_neg hx]
    rw [if_neg (fun h => hx h.1)]

/-- The same samples are used, in whatever order they are listed: both constructions raise, or the used samples of one are those of the
other in another order. -/
theorem C227_selection (L : Limits) (rows rows' : List Row) (h : rows.Perm rows') :
    (∃ e, setFitObs (arr (·.1) rows) (arr (·.2.1) rows) (some (arr (·.2.2) rows)) L = .error e ∧
      setFitObs (arr (·.1) rows') (arr (·.2.1) rows') (some (arr (·.2.2) rows')) L = .error e) ∨
    ∃ (u u' : List Row) (o o' : UsedRaw), u.Perm u' ∧
      setFitObs (arr (·.1) rows) (arr (·.2.1) rows) (some (arr (·.2.2) rows)) L = .ok o ∧
      setFitObs (arr (·.1) rows') (arr (·.2.1) rows') (some (arr (·.2.2) rows')) L = .ok o' ∧
      o.used = ⟨u.map (·.1), u.map (·.2.1), some (u.map (·.2.2))⟩ ∧ o'.used = ⟨u'.map (·.1), u'.map (·.2.1), some (u'.map (·.2.2))⟩ ∧
      o.nobs = o'.nobs := by
  rw [setFitObs_rows, setFitObs_rows]
  by_cases hg : GoodPair L.xoutside ∧ GoodPair L.youtside
  · rw [if_pos hg, if_pos hg]
    exact Or.inr ⟨_, _, _, _, h.filter _, rfl, rfl, rfl, rfl, (h.map _).count_eq true⟩
  · rw [if_neg hg, if_neg hg]
    exact Or.inl ⟨_, rfl, rfl⟩

/-! ### The guesses -/

/-- Peaks, steps, composites, exponentials and power laws: the initial guess (or the error) does not depend on the order of the samples;
for all values, missing and infinite ones included. -/
theorem C227_guesses (d e : List (Fl × Fl)) (h : d.Perm e) (g : Fl) (g0 gy0 gy1 : Option Fl) :
    gaussianP0 (col1 d) (col2 d) = gaussianP0 (col1 e) (col2 e) ∧
    gaussianNormP0 (col1 d) (col2 d) = gaussianNormP0 (col1 e) (col2 e) ∧
    gaussianLnP0 (col1 d) (col2 d) = gaussianLnP0 (col1 e) (col2 e) ∧
    moyalP0 (col1 d) (col2 d) = moyalP0 (col1 e) (col2 e) ∧
    gaussPlusP0 (col1 d) (col2 d) = gaussPlusP0 (col1 e) (col2 e) ∧
    gaussTimesP0 g (col1 d) (col2 d) = gaussTimesP0 g (col1 e) (col2 e) ∧
    gaussTimesPlusP0 g (col1 d) (col2 d) = gaussTimesPlusP0 g (col1 e) (col2 e) ∧
    heavySideP0 g0 gy0 gy1 (col1 d) (col2 d) = heavySideP0 g0 gy0 gy1 (col1 e) (col2 e) ∧
    exponentialP0 (col1 d) (col2 d) = exponentialP0 (col1 e) (col2 e) ∧
    exponentialPlusCP0 (col1 d) (col2 d) = exponentialPlusCP0 (col1 e) (col2 e) ∧
    exponentialCDFP0 (col1 d) (col2 d) = exponentialCDFP0 (col1 e) (col2 e) ∧
    powerLawP0 (col1 d) = powerLawP0 (col1 e) ∧ powerLaw3P0 (col1 d) = powerLaw3P0 (col1 e) := by
  have hl := length1 h
  have hm := npMax_perm (col2_perm h)
  have hx := npMax_perm (col1_perm h)
  have hn := npMin_perm (col1_perm h)
  have hw := wMean_perm h
  have hv := wVar_perm h
  have hf : ∀ p : Fl → Prop, (d.filter (fun q => decide (p q.1))).Perm (e.filter (fun q => decide (p q.1))) := fun p => h.filter _
  have sm : ∀ p, wMean (selBy p (col1 d) (col1 d)) (selBy p (col1 d) (col2 d)) = wMean (selBy p (col1 e) (col1 e)) (selBy p (col1 e) (col2 e)) :=
    fun p => by rw [selBy1, selBy2, selBy1, selBy2]; exact wMean_perm (hf p)
  have sv : ∀ p, wVar (selBy p (col1 d) (col1 d)) (selBy p (col1 d) (col2 d)) = wVar (selBy p (col1 e) (col1 e)) (selBy p (col1 e) (col2 e)) :=
    fun p => by rw [selBy1, selBy2, selBy1, selBy2]; exact wVar_perm (hf p)
  have sp : ∀ p, (selBy p (col1 d) (col2 d)).Perm (selBy p (col1 e) (col2 e)) := fun p => by rw [selBy2, selBy2]; exact col2_perm (hf p)
  have nil : ∀ p : Fl → Prop, selBy p (col1 d) (col2 d) = [] ↔ selBy p (col1 e) (col2 e) = [] := by
    intro p
    rw [← List.length_eq_zero_iff, ← List.length_eq_zero_iff, (sp p).length_eq]
  have smx := fun p => npMax_perm (sp p)
  have sme := fun p => npMean_perm (sp p)
  have smd := fun p => npMedian_perm (sp p)
  refine ⟨?_, ?_, ?_, ?_, ?_, ?_, ?_, ?_, ?_, ?_, ?_, ?_, ?_⟩
  · unfold gaussianP0; rw [hl, hm, hw, hv]
  · unfold gaussianNormP0; rw [hl, hm, hw, hv]
  · unfold gaussianLnP0; rw [hl, hm, hw, hv]
  · unfold moyalP0; rw [hl, hm, hw, hv]
  · unfold gaussPlusP0
    simp only [hl, hm, hw, sm, sv]
  · unfold gaussTimesP0
    simp only [hl, sm, sv, smx, nil]
  · unfold gaussTimesPlusP0
    simp only [hl, sm, sv, smx, nil, sme]
  · unfold heavySideP0
    simp only [hl, hx, hn, smd, npMean_perm (col2_perm h)]
  · unfold exponentialP0; rw [hl, hm]
  · unfold exponentialPlusCP0; rw [hl, hm]
  · unfold exponentialCDFP0; rw [hl, npMean_perm (col2_perm h)]
  · unfold powerLawP0; rw [hl]
  · unfold powerLaw3P0; rw [hl]

/-! ### Objective and statistics -/

/-- what the optimiser minimises -/
theorem C227_objective (C : ℝ) (f : ℝ → ℝ) (d e : List (ℝ × ℝ × ℝ)) (h : d.Perm e) : FitRun.objective C (FitRun.wres f d) = FitRun.objective C (FitRun.wres f e) := by
  unfold FitRun.objective FitRun.wres
  rw [((h.map _).map _).sum_eq]

/-- reduced chi-square and R-squared, for any curve -/
theorem C227_statistics (f : Fl → Fl) (rows rows' : List Row) (h : rows.Perm rows') (npar : ℕ) :
    chisqDof (rows.map (·.2.1)) (rows.map (fun q => f q.1)) (some (rows.map (·.2.2))) npar
      = chisqDof (rows'.map (·.2.1)) (rows'.map (fun q => f q.1)) (some (rows'.map (·.2.2))) npar ∧
    chisqDof (rows.map (·.2.1)) (rows.map (fun q => f q.1)) none npar
      = chisqDof (rows'.map (·.2.1)) (rows'.map (fun q => f q.1)) none npar ∧
    rsq (rows.map (·.2.1)) (rows.map (fun q => f q.1)) = rsq (rows'.map (·.2.1)) (rows'.map (fun q => f q.1)) := by
  have hl : (rows.map (·.2.1)).length = (rows'.map (·.2.1)).length := (h.map _).length_eq
  refine ⟨?_, ?_, ?_⟩
  · unfold chisqDof
    simp only [hl, zipWith_same, List.map_map]
    rw [npSum_perm (h.map _)]
  · unfold chisqDof
    simp only [hl, zipWith_same, List.map_map]
    rw [npSum_perm (h.map _)]
  · unfold rsq
    rw [npMean_perm (h.map (·.2.1))]
    simp only [zipWith_same, List.map_map]
    rw [npSum_perm (h.map _)]
    congr 2
    exact npSum_perm (h.map _)

/-! ### What does depend on the order -/

/-- The same three points of a parabola in another order: the guessed slope of a line goes from 5/2 to 2, and even a straight line through
a point measured twice has a guess only if the two are not listed next to each other. -/
theorem C227_line_violated :
    (lineP0 (col1 [(.fin 0, .fin 0), (.fin 1, .fin 1), (.fin 3, .fin 9)]) (col2 [(.fin 0, .fin 0), (.fin 1, .fin 1), (.fin 3, .fin 9)])).map
        (Option.map (·[0]?)) = .ok (some (some (.fin (5 / 2)))) ∧
    (lineP0 (col1 [(.fin 1, .fin 1), (.fin 0, .fin 0), (.fin 3, .fin 9)]) (col2 [(.fin 1, .fin 1), (.fin 0, .fin 0), (.fin 3, .fin 9)])).map
        (Option.map (·[0]?)) = .ok (some (some (.fin 2))) ∧
    lineP0 (col1 [(.fin 0, .fin 0), (.fin 0, .fin 0), (.fin 1, .fin 1)]) (col2 [(.fin 0, .fin 0), (.fin 0, .fin 0), (.fin 1, .fin 1)]) = .ok none ∧
    lineP0 (col1 [(.fin 0, .fin 0), (.fin 1, .fin 1), (.fin 0, .fin 0)]) (col2 [(.fin 0, .fin 0), (.fin 1, .fin 1), (.fin 0, .fin 0)]) ≠ .ok none := by
  have med2 : ∀ a b : ℝ, a ≤ b → npMedian [.fin a, .fin b] = .fin ((a + b) / 2) := by
    intro a b hab
    have hs : [Fl.fin a, Fl.fin b].mergeSort (fun a b => decide (Fl.le a b)) = [Fl.fin a, Fl.fin b] := by
      apply List.mergeSort_of_pairwise
      simp only [List.pairwise_cons, List.mem_singleton, forall_eq, decide_eq_true_eq, Fl.le_fin]
      simpa using hab
    unfold npMedian
    rw [if_neg (by simp [Fl.isNaN])]
    simp only [hs, List.length_cons, List.length_nil, Nat.reduceAdd, Nat.reduceMod, Nat.reduceDiv, Nat.reduceSub, List.getD_cons_zero,
      List.getD_cons_succ, Fl.fin_add]
    rw [if_neg (by norm_num), Fl.fin_div _ _ two_ne_zero]
  have ok : ∀ a b c : ℝ, a ≠ b → b ≠ c → dxOk [.fin a, .fin b, .fin c] := by
    intro a b c h1 h2 q hq
    simp only [ediff1d, Fl.fin_sub, List.mem_cons, List.not_mem_nil, or_false] at hq
    rcases hq with rfl | rfl
    · exact ⟨trivial, abs_pos.mpr (sub_ne_zero.mpr h1.symm)⟩
    · exact ⟨trivial, abs_pos.mpr (sub_ne_zero.mpr h2.symm)⟩
  refine ⟨?_, ?_, ?_, ?_⟩
  · unfold lineP0 col1 col2
    simp only [List.map_cons, List.map_nil]
    rw [if_neg (by simp), if_pos (ok 0 1 3 (by norm_num) (by norm_num))]
    simp only [Except.map, Option.map, List.getElem?_cons_zero, lineGuess, ediff1d, List.zipWith, Fl.fin_sub]
    rw [Fl.fin_div _ _ (by norm_num), Fl.fin_div _ _ (by norm_num), med2 _ _ (by norm_num)]
    norm_num
  · unfold lineP0 col1 col2
    simp only [List.map_cons, List.map_nil]
    rw [if_neg (by simp), if_pos (ok 1 0 3 (by norm_num) (by norm_num))]
    simp only [Except.map, Option.map, List.getElem?_cons_zero, lineGuess, ediff1d, List.zipWith, Fl.fin_sub]
    rw [Fl.fin_div _ _ (by norm_num), Fl.fin_div _ _ (by norm_num), med2 _ _ (by norm_num)]
    norm_num
  · unfold lineP0 col1 col2
    simp only [List.map_cons, List.map_nil]
    rw [if_neg (by simp), if_neg]
    intro h
    have := (h (.fin (0 - 0)) (by simp [ediff1d, Fl.fin_sub])).2
    simp [Fl.lt, Fl.abs] at this
  · unfold lineP0 col1 col2
    simp only [List.map_cons, List.map_nil]
    rw [if_neg (by simp), if_pos (ok 0 1 0 (by norm_num) (by norm_num))]
    simp

/-- The hinge at a point takes the first of two samples equally far from the hinge: its height depends on which is listed first. -/
theorem C227_point_violated (yl yr : ℝ) :
    argminIdx ([Fl.fin 0, .fin 2].map (fun a => (a - .fin 1).abs)) = 0 ∧ argminIdx ([Fl.fin 2, .fin 0].map (fun a => (a - .fin 1).abs)) = 0 ∧
    [Fl.fin yl, .fin yr].getD 0 .nan = .fin yl ∧ [Fl.fin yr, .fin yl].getD 0 .nan = .fin yr := by
  have key : ∀ a b : ℝ, |a - 1| = 1 → |b - 1| = 1 → argminIdx ([Fl.fin a, .fin b].map (fun a => (a - .fin 1).abs)) = 0 := by
    intro a b ha hb
    simp only [List.map_cons, List.map_nil, Fl.fin_sub, Fl.abs, ha, hb]
    unfold argminIdx
    rw [show List.range [Fl.fin 1, Fl.fin 1].length = [0, 1] from rfl, List.findIdx_cons]
    have hall : ∀ j < [Fl.fin 1, Fl.fin 1].length, Fl.le ([Fl.fin 1, Fl.fin 1].getD 0 .nan) ([Fl.fin 1, Fl.fin 1].getD j .nan) := by
      intro j hj
      have hj : j < 2 := hj
      interval_cases j <;> exact (Fl.le_fin _ _).mpr le_rfl
    simp only [decide_eq_true hall, cond_true]
  exact ⟨key 0 2 (by norm_num) (by norm_num), key 2 0 (by norm_num) (by norm_num), rfl, rfl⟩

/-! ### example -/

example : gaussianP0 (col1 [(.fin 1, .nan), (.fin 2, .fin 3), (.pinf, .fin 4)]) (col2 [(.fin 1, .nan), (.fin 2, .fin 3), (.pinf, .fin 4)])
    = gaussianP0 (col1 [(.pinf, .fin 4), (.fin 1, .nan), (.fin 2, .fin 3)]) (col2 [(.pinf, .fin 4), (.fin 1, .nan), (.fin 2, .fin 3)]) := by
  refine (C227_guesses _ _ ?_ .nan none none none).1
  exact ((List.Perm.swap _ _ _).trans ((List.Perm.swap _ _ _).cons _)).symm.trans (by simp) |>.trans (List.Perm.refl _)

end
end SW
