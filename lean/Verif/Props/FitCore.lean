import Verif.FitCore

/-!
# C40 - C45, C99: selecting fit observations, fit histories, residuals and chi^2
-/

namespace SW
noncomputable section
open Classical

/-! ### Specification -/

/-- `a` lies in the closed interval given by optional limits. -/
def Within (lo hi : Option Fl) (a : Fl) : Prop :=
  a.isFinite ∧ (∀ l, lo = some l → Fl.le l a) ∧ (∀ h, hi = some h → Fl.le a h)

/-- `a` is not strictly inside the excluded interval. -/
def Outside (o : Option (Fl × Fl)) (a : Fl) : Prop := ∀ lo hi, o = some (lo, hi) → Fl.le a lo ∨ Fl.le hi a

/-- The weight used for selection: `w`, or `w / (y ln 10)` for a logarithmic y axis. -/
def selWeight (logy : Bool) (w y : Fl) : Fl := if logy then w / (y * .fin (Real.log 10)) else w

/-- An observation (x, y, maybe weight) takes part in the fit. -/
def Selected (L : Limits) (x y : Fl) (w : Option Fl) : Prop :=
  Within L.xmin L.xmax x ∧ Within L.ymin L.ymax y ∧ Outside L.xoutside x ∧ Outside L.youtside y ∧
    ∀ v, w = some v → Within L.wmin L.wmax (selWeight L.logy v y)

/-- an `outside` pair is usable: lower < upper -/
def GoodPair (o : Option (Fl × Fl)) : Prop := ∀ lo hi, o = some (lo, hi) → Fl.lt lo hi

/-! ### Helpers -/

theorem zipWith_same {α β γ δ} (f : β → γ → δ) (g : α → β) (h : α → γ) (l : List α) :
    List.zipWith f (l.map g) (l.map h) = l.map (fun a => f (g a) (h a)) := by
  induction l with
  | nil => rfl
  | cons a l ih => simp [ih]

theorem compress_map {α β} (l : List α) (p : α → Bool) (g : α → β) :
    compress (l.map p) (l.map g) = (l.filter p).map g := by
  induction l with
  | nil => rfl
  | cons a l ih =>
    cases hp : p a <;> simp [compress, hp, ih]

theorem eq_map_range (l : List Fl) : l = (List.range l.length).map (fun k => l.getD k .nan) := by
  apply List.ext_getElem
  · simp
  · intro i h1 h2; simp [h1]

theorem oneObsMask_map {α} (l : List α) (g : α → Fl) (lo hi : Option Fl) :
    oneObsMask (l.map g) lo hi = l.map (fun a => decide (Within lo hi (g a))) := by
  unfold oneObsMask Within
  rcases lo with _ | lo <;> rcases hi with _ | hi <;>
    simp only [List.map_map, zipWith_same] <;>
    (apply List.map_congr_left; intro a _; simp [Bool.and_assoc])

theorem outsideMask_map {α} (l : List α) (g : α → Fl) (o : Option (Fl × Fl)) :
    outsideMask (l.map g) o = if GoodPair o then .ok (l.map (fun a => decide (Outside o (g a))))
      else .error .assertionError := by
  unfold outsideMask GoodPair Outside
  rcases o with _ | ⟨lo, hi⟩
  · rw [if_pos (by simp)]; simp
  · by_cases h : Fl.lt lo hi
    · rw [if_pos (by simpa using h)]
      simp only [h, if_true, List.map_map, zipWith_same]
      congr 1
      apply List.map_congr_left; intro a _; simp
    · rw [if_neg (by simpa using h)]
      simp [h]

/-- index form of `setFitObs` -/
theorem setFitObs_eq (x y : NArr) (w : Option NArr) (L : Limits) (hs : x.shape = y.shape)
    (hw : ∀ w', w = some w' → w'.shape = x.shape) (hL : w = none → L.wmin = none ∧ L.wmax = none)
    (hx : GoodPair L.xoutside) (hy : GoodPair L.youtside) :
    let n := x.data.length
    let P : ℕ → Bool := fun k => decide (Selected L (x.data.getD k .nan) (y.data.getD k .nan)
      (w.map (fun w' => w'.data.getD k .nan)))
    setFitObs x y w L = .ok
      { used := ⟨((List.range n).filter P).map (x.data.getD · .nan), ((List.range n).filter P).map (y.data.getD · .nan),
          w.map (fun w' => ((List.range n).filter P).map (w'.data.getD · .nan))⟩,
        raw := ⟨x.data, y.data, w.map NArr.data⟩, mask := (List.range n).map P } := by
  intro n P
  have hyl : y.data.length = n := by rw [y.ok, ← hs, ← x.ok]
  have ex : x.data = (List.range n).map (fun k => x.data.getD k .nan) := eq_map_range _
  have ey : y.data = (List.range n).map (fun k => y.data.getD k .nan) := by rw [← hyl]; exact eq_map_range _
  unfold setFitObs
  have c1 : ¬ (w.isNone = true ∧ (L.wmin.isSome = true ∨ L.wmax.isSome = true)) := by
    rintro ⟨h1, h2⟩
    obtain ⟨h3, h4⟩ := hL (Option.isNone_iff_eq_none.mp h1)
    rw [h3, h4] at h2; simp at h2
  rw [if_neg c1, if_neg (not_not.mpr hs)]
  have c2 : ¬ ∃ w', w = some w' ∧ w'.shape ≠ x.shape := by
    rintro ⟨w', h1, h2⟩; exact h2 (hw w' h1)
  rw [if_neg c2]
  have mx : oneObsMask x.data L.xmin L.xmax =
      (List.range n).map (fun k => decide (Within L.xmin L.xmax (x.data.getD k .nan))) := by
    conv_lhs => rw [ex]
    exact oneObsMask_map _ _ _ _
  have my : oneObsMask y.data L.ymin L.ymax =
      (List.range n).map (fun k => decide (Within L.ymin L.ymax (y.data.getD k .nan))) := by
    conv_lhs => rw [ey]
    exact oneObsMask_map _ _ _ _
  have ox : outsideMask x.data L.xoutside =
      .ok ((List.range n).map (fun k => decide (Outside L.xoutside (x.data.getD k .nan)))) := by
    conv_lhs => rw [ex]
    rw [outsideMask_map, if_pos hx]
  have oy : outsideMask y.data L.youtside =
      .ok ((List.range n).map (fun k => decide (Outside L.youtside (y.data.getD k .nan)))) := by
    conv_lhs => rw [ey]
    rw [outsideMask_map, if_pos hy]
  simp only [mx, my, ox, oy, bind, Except.bind, pure, Except.pure, zipWith_same]
  cases w with
  | none =>
    have hm : (List.range n).map (fun k => decide (Within L.xmin L.xmax (x.data.getD k .nan)) &&
        decide (Within L.ymin L.ymax (y.data.getD k .nan)) && decide (Outside L.xoutside (x.data.getD k .nan)) &&
        decide (Outside L.youtside (y.data.getD k .nan))) = (List.range n).map P := by
      apply List.map_congr_left
      intro k _
      simp only [P, Selected, Option.map_none]
      simp [Bool.and_assoc]
    simp only [hm, Option.map_none]
    congr 2
    congr 1
    · conv_lhs => rw [ex]
      exact compress_map _ _ _
    · conv_lhs => rw [ey]
      exact compress_map _ _ _
  | some w' =>
    have hwl : w'.data.length = n := by rw [w'.ok, hw w' rfl, ← x.ok]
    have ew : w'.data = (List.range n).map (fun k => w'.data.getD k .nan) := by rw [← hwl]; exact eq_map_range _
    have ef : (if L.logy = true then List.zipWith (fun a b => a / (b * .fin (Real.log 10))) w'.data y.data
        else w'.data) = (List.range n).map (fun k => selWeight L.logy (w'.data.getD k .nan) (y.data.getD k .nan)) := by
      unfold selWeight
      cases L.logy with
      | false => simp only [Bool.false_eq_true, if_false]; exact ew
      | true =>
        simp only [if_true]
        conv_lhs => rw [ew, ey]
        rw [zipWith_same]
    simp only [ef, oneObsMask_map, zipWith_same]
    have hm : (List.range n).map (fun k => decide (Within L.xmin L.xmax (x.data.getD k .nan)) &&
        decide (Within L.ymin L.ymax (y.data.getD k .nan)) && decide (Outside L.xoutside (x.data.getD k .nan)) &&
        decide (Outside L.youtside (y.data.getD k .nan)) &&
        decide (Within L.wmin L.wmax (selWeight L.logy (w'.data.getD k .nan) (y.data.getD k .nan)))) =
        (List.range n).map P := by
      apply List.map_congr_left
      intro k _
      simp only [P, Selected, Option.map_some]
      simp [Bool.and_assoc]
    simp only [hm, Option.map_some]
    congr 2
    congr 1
    · conv_lhs => rw [ex]
      exact compress_map _ _ _
    · conv_lhs => rw [ey]
      exact compress_map _ _ _
    · congr 1
      conv_lhs => rw [ew]
      exact compress_map _ _ _

/-- C41: construction succeeds iff the shapes agree, no weight limit is given without weights, and each excluded
interval is properly ordered; a shape mismatch raises InvalidParameterError, the other two AssertionError. -/
theorem C41_construction (x y : NArr) (w : Option NArr) (L : Limits) :
    ((∃ o, setFitObs x y w L = .ok o) ↔ x.shape = y.shape ∧ (∀ w', w = some w' → w'.shape = x.shape) ∧
      (w = none → L.wmin = none ∧ L.wmax = none) ∧ GoodPair L.xoutside ∧ GoodPair L.youtside) ∧
    ((w = none → L.wmin = none ∧ L.wmax = none) → (x.shape ≠ y.shape ∨ ∃ w', w = some w' ∧ w'.shape ≠ x.shape) →
      setFitObs x y w L = .error .invalidParameter) ∧
    (w = none → (L.wmin ≠ none ∨ L.wmax ≠ none) → setFitObs x y w L = .error .assertionError) := by
  have A : w = none → (L.wmin ≠ none ∨ L.wmax ≠ none) → setFitObs x y w L = .error .assertionError := by
    rintro rfl h
    unfold setFitObs
    rw [if_pos ⟨rfl, by simpa [Option.isSome_iff_ne_none] using h⟩]
  have B : (w = none → L.wmin = none ∧ L.wmax = none) →
      (x.shape ≠ y.shape ∨ ∃ w', w = some w' ∧ w'.shape ≠ x.shape) →
      setFitObs x y w L = .error .invalidParameter := by
    intro hL h
    unfold setFitObs
    have c1 : ¬ (w.isNone = true ∧ (L.wmin.isSome = true ∨ L.wmax.isSome = true)) := by
      rintro ⟨h1, h2⟩
      obtain ⟨h3, h4⟩ := hL (Option.isNone_iff_eq_none.mp h1)
      rw [h3, h4] at h2; simp at h2
    rw [if_neg c1]
    by_cases hs : x.shape = y.shape
    · rw [if_neg (not_not.mpr hs)]
      rcases h with h | ⟨w', rfl, h⟩
      · exact absurd hs h
      · rw [if_pos ⟨w', rfl, h⟩]
    · rw [if_pos hs]
  refine ⟨⟨?_, ?_⟩, B, A⟩
  · rintro ⟨o, ho⟩
    have h3 : w = none → L.wmin = none ∧ L.wmax = none := by
      intro hw
      by_contra hc
      rw [A hw (by tauto)] at ho; cases ho
    have h1 : ¬ (x.shape ≠ y.shape ∨ ∃ w', w = some w' ∧ w'.shape ≠ x.shape) := by
      intro hc; rw [B h3 hc] at ho; cases ho
    have hs : x.shape = y.shape := by by_contra hc; exact h1 (Or.inl hc)
    have hw : ∀ w', w = some w' → w'.shape = x.shape := by
      intro w' hw; by_contra hc; exact h1 (Or.inr ⟨w', hw, hc⟩)
    refine ⟨hs, hw, h3, ?_⟩
    unfold setFitObs at ho
    have c1 : ¬ (w.isNone = true ∧ (L.wmin.isSome = true ∨ L.wmax.isSome = true)) := by
      rintro ⟨h1, h2⟩
      obtain ⟨h4, h5⟩ := h3 (Option.isNone_iff_eq_none.mp h1)
      rw [h4, h5] at h2; simp at h2
    have c2 : ¬ ∃ w', w = some w' ∧ w'.shape ≠ x.shape := by
      rintro ⟨w', h1, h2⟩; exact h2 (hw w' h1)
    rw [if_neg c1, if_neg (not_not.mpr hs), if_neg c2] at ho
    have hyl : y.data.length = x.data.length := by rw [y.ok, ← hs, ← x.ok]
    have ox := outsideMask_map (List.range x.data.length) (fun k => x.data.getD k .nan) L.xoutside
    rw [← eq_map_range x.data] at ox
    have oy := outsideMask_map (List.range y.data.length) (fun k => y.data.getD k .nan) L.youtside
    rw [← eq_map_range y.data] at oy
    rw [ox, oy] at ho
    by_cases gx : GoodPair L.xoutside
    · by_cases gy : GoodPair L.youtside
      · exact ⟨gx, gy⟩
      · rw [if_pos gx, if_neg gy] at ho; cases ho
    · rw [if_neg gx] at ho; cases ho
  · rintro ⟨h1, h2, h3, h4, h5⟩
    exact ⟨_, setFitObs_eq x y w L h1 h2 h3 h4 h5⟩

/-- C41: the documented 2-D (n x n) covariance weights are always refused for one-dimensional data. -/
theorem C41_covariance_rejected (x y : List Fl) (cov : NArr) (n : ℕ)
    (hc : cov.shape = [n, n]) (L : Limits) :
    setFitObs (.of x) (.of y) (some cov) L = .error .invalidParameter := by
  refine (C41_construction (.of x) (.of y) (some cov) L).2.1 (by simp) (Or.inr ⟨cov, rfl, ?_⟩)
  rw [hc]; simp [NArr.of]

/-- C40: an observation takes part iff it is `Selected`; the used arrays are the raw arrays at those (increasing)
positions, so x, y and weights stay aligned; `nobs` is their number. -/
theorem C40_selection (x y : NArr) (w : Option NArr) (L : Limits) (o : UsedRaw)
    (h : setFitObs x y w L = .ok o) :
    ∃ idx : List ℕ, idx.Pairwise (· < ·) ∧
      (∀ k, k ∈ idx ↔ k < x.data.length ∧ Selected L (x.data.getD k .nan) (y.data.getD k .nan)
        (w.map (fun w' => w'.data.getD k .nan))) ∧
      o.used.x = idx.map (x.data.getD · .nan) ∧ o.used.y = idx.map (y.data.getD · .nan) ∧
      o.used.w = w.map (fun w' => idx.map (w'.data.getD · .nan)) ∧
      o.raw.x = x.data ∧ o.raw.y = y.data ∧ o.raw.w = w.map NArr.data ∧
      o.nobs = idx.length ∧ o.mask.length = x.data.length ∧
      (∀ k, k < x.data.length → (o.mask.getD k false = true ↔ k ∈ idx)) := by
  obtain ⟨h1, h2, h3, h4, h5⟩ := (C41_construction x y w L).1.mp ⟨o, h⟩
  have e := setFitObs_eq x y w L h1 h2 h3 h4 h5
  simp only [] at e
  rw [h] at e
  have e' := Except.ok.inj e
  refine ⟨(List.range x.data.length).filter (fun k => decide (Selected L (x.data.getD k .nan)
    (y.data.getD k .nan) (w.map (fun w' => w'.data.getD k .nan)))), ?_, ?_, ?_, ?_, ?_, ?_, ?_, ?_, ?_, ?_, ?_⟩
  · exact List.pairwise_lt_range.filter _
  · intro k; simp [List.mem_filter]
  · rw [e']
  · rw [e']
  · rw [e']
  · rw [e']
  · rw [e']
  · rw [e']
  · rw [e']
    unfold UsedRaw.nobs
    simp only []
    rw [List.count_eq_countP, List.countP_map, List.countP_eq_length_filter]
    congr 1
    apply List.filter_congr
    intro k _; simp
  · rw [e']; simp
  · intro k hk
    rw [e']
    simp [hk]

/-- non-vacuity: three points, one NaN, one below xmin -/
example : ∃ o, setFitObs (.of [.fin 1, .nan, .fin 3]) (.of [.fin 1, .fin 2, .fin 3]) none { xmin := some (.fin 2) }
    = .ok o :=
  (C41_construction _ _ _ _).1.mpr ⟨rfl, by simp, by simp, by simp [GoodPair], by simp [GoodPair]⟩
example : Selected { xmin := some (.fin 2) } (.fin 3) (.fin 3) none ∧
    ¬ Selected { xmin := some (.fin 2) } (.fin 1) (.fin 1) none := by
  constructor
  · simp [Selected, Within, Outside]; norm_num
  · simp [Selected, Within, Outside]

/-! ### C42 -/

/-- C42: InsufficientDataError exactly when there are fewer used observations than parameters; with
`return_exception` it is returned instead of raised; the stored state is untouched. Nothing else in `make_fit`
produces it (the optimiser never raises it). -/
theorem C42_insufficient {ρ β} (nobs npar : ℕ) (c : FitCall ρ β) (s : FitState ρ β)
    (hopt : ∀ e, c.outcome = .optRaises e → e ≠ .insufficientData)
    (hcalc : ∀ b e r, c.outcome = .optOk b (.error e) r → e ≠ .insufficientData)
    (hrep : ∀ b r e, c.outcome = .optOk b (.ok r) (.error e) → e ≠ .insufficientData) :
    ((makeFit nobs npar c s).2 = .error .insufficientData ↔ nobs < npar ∧ c.returnException = false) ∧
    ((makeFit nobs npar c s).2 = .ok (some .insufficientData) ↔ nobs < npar ∧ c.returnException = true) ∧
    (nobs < npar → (makeFit nobs npar c s).1 = s) := by
  unfold makeFit
  by_cases h : npar ≤ nobs
  · rw [if_neg (not_not.mpr h)]
    have hn : ¬ nobs < npar := by omega
    simp only [hn, false_and, iff_false, false_implies, and_true]
    split
    · simp
    · rcases ho : c.outcome with e | ⟨b, stats, rep⟩
      · have := hopt e ho
        simp only []
        split <;> simp [this]
      · rcases stats with e | r
        · have := hcalc b e rep ho
          simp [this]
        · rcases rep with e | ⟨⟩
          · have := hrep b r e ho
            simp [this]
          · simp
  · rw [if_pos h]
    have hn : nobs < npar := by omega
    cases c.returnException <;> simp [hn]

/-- C42: which other failures are returned rather than raised: only RuntimeError (including NotImplementedError), ValueError and FitFailedError
of the optimiser, and only on request. -/
theorem C42_returned {ρ β} (nobs npar : ℕ) (c : FitCall ρ β) (s : FitState ρ β) (e : PyErr) (hn : npar ≤ nobs) :
    (makeFit nobs npar c s).2 = .ok (some e) ↔
      c.absoluteSigma = false ∧ c.returnException = true ∧ c.outcome = .optRaises e ∧
      (e = .runtimeError ∨ e = .notImplemented ∨ e = .valueError ∨ e = .fitFailed) := by
  unfold makeFit
  rw [if_neg (not_not.mpr hn)]
  cases c.absoluteSigma
  · simp only [Bool.false_eq_true, if_false]
    rcases ho : c.outcome with e' | ⟨b, stats, rep⟩
    · simp only [caughtByFit, FitOutcome.optRaises.injEq]
      by_cases h : (e' = .runtimeError ∨ e' = .notImplemented ∨ e' = .valueError ∨ e' = .fitFailed) ∧ c.returnException = true
      · simp only [h, and_self, if_true]
        constructor
        · intro h'
          have := Option.some.inj (Except.ok.inj h')
          subst this
          exact ⟨trivial, trivial, rfl, h.1⟩
        · rintro ⟨_, _, rfl, _⟩; rfl
      · simp only [h, if_false]
        constructor
        · intro h'; cases h'
        · rintro ⟨_, h2, rfl, h3⟩; exact absurd ⟨h3, h2⟩ h
    · rcases stats with e' | r
      · simp
      · rcases rep with e' | ⟨⟩ <;> simp
  · simp

/-! ### C43 -/

/-- The call produced results: enough data, the optimiser and the covariance step succeeded. -/
def FitCall.produces {ρ β} (nobs npar : ℕ) (c : FitCall ρ β) : Option ρ :=
  if npar ≤ nobs ∧ c.absoluteSigma = false then
    match c.outcome with
    | .optOk _ (.ok r) _ => some r
    | _ => none
  else none

/-- C43: over every history of `make_fit` calls with every outcome, the stored results are those of the last
call that produced some, and the initial ones if none did; a call that produced none changes nothing of them. -/
theorem C43_history {ρ β} (nobs npar : ℕ) (s : FitState ρ β) (cs : List (FitCall ρ β)) :
    (runFits nobs npar s cs).results = match (cs.filterMap (FitCall.produces nobs npar)).getLast? with
      | some r => some r
      | none => s.results := by
  have step : ∀ (c : FitCall ρ β) (s : FitState ρ β), (makeFit nobs npar c s).1.results =
      match c.produces nobs npar with
      | some r => some r
      | none => s.results := by
    intro c s
    unfold makeFit FitCall.produces
    by_cases h : npar ≤ nobs
    · rw [if_neg (not_not.mpr h)]
      cases hA : c.absoluteSigma
      · simp only [h, true_and, Bool.false_eq_true, if_false, if_true]
        rcases ho : c.outcome with e' | ⟨b, stats, rep⟩
        · rfl
        · rcases stats with e' | r
          · rfl
          · rcases rep with e' | ⟨⟩ <;> rfl
      · simp
    · simp [h]
  induction cs generalizing s with
  | nil => rfl
  | cons c cs ih =>
    unfold runFits
    rw [ih, List.filterMap_cons]
    cases hp : c.produces nobs npar with
    | none =>
      simp only []
      rw [step, hp]
    | some r =>
      simp only []
      rw [List.getLast?_cons, step, hp]
      cases (cs.filterMap (FitCall.produces nobs npar)).getLast? <;> rfl

/-- C43: in particular a raising or exception-returning optimiser leaves the whole state as it was. -/
theorem C43_failed_call {ρ β} (nobs npar : ℕ) (c : FitCall ρ β) (s : FitState ρ β)
    (h : nobs < npar ∨ c.absoluteSigma = true ∨ ∃ e, c.outcome = .optRaises e) :
    (makeFit nobs npar c s).1 = s ∧ (makeFit nobs npar c s).2 ≠ .ok none := by
  unfold makeFit
  by_cases hn : npar ≤ nobs
  · rw [if_neg (not_not.mpr hn)]
    rcases h with h | h | ⟨e, h⟩
    · omega
    · rw [if_pos h]; simp
    · cases c.absoluteSigma
      · simp only [Bool.false_eq_true, if_false, h]
        refine ⟨trivial, ?_⟩
        split <;> simp
      · simp
  · rw [if_pos hn]
    refine ⟨rfl, ?_⟩
    cases c.returnException <;> simp

/-- C99 (violated): if the covariance step fails (singular Jacobian), `return_exception=True` should return the
exception and leave the object consistent; instead the exception is raised in either case and the fit bounds are
already those of the failed call while the parameters are still the old ones. -/
theorem C99_covariance_failure {ρ β} (nobs npar : ℕ) (s : FitState ρ β) (b : β) (e : PyErr)
    (rep : Except PyErr Unit) (ret : Bool) (hn : npar ≤ nobs) :
    let out := makeFit nobs npar ⟨ret, false, .optOk b (.error e) rep⟩ s
    out.2 = .error e ∧ out.1.bounds = some b ∧ out.1.results = s.results := by
  simp [makeFit, hn]

example : (runFits 5 2 ({} : FitState ℕ Unit) [⟨false, false, .optOk () (.ok 1) (.ok ())⟩,
    ⟨true, false, .optRaises .fitFailed⟩]).results = some 1 := by
  rw [C43_history]; simp [FitCall.produces]

/-! ### C44, C45 -/

/-- C44: residuals are observed minus fitted, and the plot class reports the opposite sign, for all data
(including NaN and infinities). -/
theorem C44_residuals (y fit : List Fl) (hl : y.length = fit.length) :
    (ffResiduals y fit false).length = y.length ∧
    ∀ k (_ : k < y.length), (ffResiduals y fit false)[k]? = some (y.getD k .nan - fit.getD k .nan) ∧
      (plotResiduals y fit false)[k]? = some (-(y.getD k .nan - fit.getD k .nan)) := by
  unfold ffResiduals plotResiduals
  simp only [Bool.false_eq_true, if_false]
  refine ⟨by simp [hl], ?_⟩
  intro k hk
  have hk' : k < fit.length := hl ▸ hk
  simp [List.getElem?_zipWith, hk, hk', Fl.neg_add_rev]

/-- C44: percent residuals: `100 (obs - fit)/fit` for measured data with `fit ≠ 0`, and NaN where `fit = 0`
(the plot class gives an infinity there unless the residual is zero too). -/
theorem C44_percent (y fit : List Fl) (k : ℕ) (a f : ℝ)
    (hy : y[k]? = some (.fin a)) (hf : fit[k]? = some (.fin f)) :
    (f ≠ 0 → (ffResiduals y fit true)[k]? = some (.fin (100 * ((a - f) / f))) ∧
      (plotResiduals y fit true)[k]? = some (.fin (100 * ((f - a) / f)))) ∧
    (f = 0 → (ffResiduals y fit true)[k]? = some .nan ∧
      (0 < a → (plotResiduals y fit true)[k]? = some .ninf)) := by
  have e1 : (ffResiduals y fit true)[k]? =
      some (if f = 0 then .nan else .fin 100 * ((Fl.fin a - .fin f) / .fin f)) := by
    unfold ffResiduals
    simp only [if_true]
    simp [List.getElem?_zipWith, hy, hf]
  have e2 : (plotResiduals y fit true)[k]? = some (.fin 100 * ((Fl.fin f - .fin a) / .fin f)) := by
    unfold plotResiduals
    simp only [if_true]
    simp [List.getElem?_zipWith, hy, hf]
  constructor
  · intro h
    rw [e1, e2, if_neg h]
    simp only [Fl.fin_sub, Fl.fin_div _ _ h, Fl.fin_mul]
    exact ⟨trivial, trivial⟩
  · rintro rfl
    rw [e1, e2, if_pos rfl]
    refine ⟨rfl, ?_⟩
    intro ha
    congr 1
    have h1 : (Fl.fin 0 - Fl.fin a) / Fl.fin 0 = .ninf := by
      rw [Fl.fin_sub]
      show (if (0 : ℝ) = 0 then _ else _) = _
      rw [if_pos rfl, if_neg (by linarith), if_pos (by linarith)]
    rw [h1]
    show Fl.infMul false 100 = _
    unfold Fl.infMul
    rw [if_neg (by norm_num), if_neg (by simp)]

theorem zipWith_fin (op : Fl → Fl → Fl) (g : ℝ → ℝ → ℝ) (h : ∀ a b, op (.fin a) (.fin b) = .fin (g a b))
    (l m : List ℝ) : List.zipWith op (l.map Fl.fin) (m.map Fl.fin) = (List.zipWith g l m).map Fl.fin := by
  induction l generalizing m with
  | nil => rfl
  | cons a l ih => cases m with
    | nil => rfl
    | cons b m => simp [ih, h]

theorem npSum_fin (l : List ℝ) : npSum (l.map Fl.fin) = .fin l.sum := by
  unfold npSum
  induction l with
  | nil => rfl
  | cons a l ih => simp [ih]

/-- sum of squared differences -/
def ssq (l m : List ℝ) : ℝ := ((List.zipWith (· - ·) l m).map (· ^ 2)).sum

theorem ssq_nonneg (l m : List ℝ) : 0 ≤ ssq l m := by
  unfold ssq
  apply List.sum_nonneg
  simp only [List.mem_map]
  rintro _ ⟨x, _, rfl⟩; positivity

theorem ssq_eq_zero (l m : List ℝ) (hl : l.length = m.length) : ssq l m = 0 ↔ l = m := by
  induction l generalizing m with
  | nil => cases m with
    | nil => simp [ssq]
    | cons => simp at hl
  | cons a l ih => cases m with
    | nil => simp at hl
    | cons b m =>
      have e : ssq (a :: l) (b :: m) = (a - b) ^ 2 + ssq l m := by simp [ssq]
      have h1 := ssq_nonneg l m
      rw [e, List.cons.injEq, ← ih m (by simpa using hl)]
      constructor
      · intro h
        have h2 := sq_nonneg (a - b)
        have h3 : (a - b) ^ 2 = 0 := by linarith
        exact ⟨by have := pow_eq_zero_iff two_ne_zero |>.mp h3; linarith, by linarith⟩
      · rintro ⟨rfl, h⟩; simp [h]

/-- total sum of squares about the mean -/
def sstot (y : List ℝ) : ℝ := (y.map (fun a => (a - y.sum / y.length) ^ 2)).sum

theorem sstot_nonneg (y : List ℝ) : 0 ≤ sstot y := by
  unfold sstot
  apply List.sum_nonneg
  simp only [List.mem_map]
  rintro _ ⟨x, _, rfl⟩; positivity

/-- C44: for measured, non-constant data R^2 is `1 - SS_res/SS_tot`, never exceeds 1, and equals 1 iff every
residual is zero. -/
theorem C44_rsq (y fit : List ℝ) (hl : y.length = fit.length) (hne : ∃ a ∈ y, ∃ b ∈ y, a ≠ b) :
    ∃ R : ℝ, rsq (y.map .fin) (fit.map .fin) = .fin R ∧ R = 1 - ssq y fit / sstot y ∧ R ≤ 1 ∧
      (R = 1 ↔ y = fit) := by
  obtain ⟨a, ha, b, hb, hab⟩ := hne
  have hlen : (y.length : ℝ) ≠ 0 := by
    have := List.length_pos_of_mem ha
    exact_mod_cast this.ne'
  have hpos : 0 < sstot y := by
    rcases lt_or_eq_of_le (sstot_nonneg y) with h | h
    · exact h
    · exfalso
      have hz : ∀ c ∈ y, c = y.sum / y.length := by
        intro c hc
        have : ∀ z ∈ y.map (fun a => (a - y.sum / y.length) ^ 2), z = 0 := by
          have hnn : ∀ z ∈ y.map (fun a => (a - y.sum / y.length) ^ 2), (0 : ℝ) ≤ z := by
            simp only [List.mem_map]; rintro _ ⟨x, _, rfl⟩; positivity
          exact fun z hz => List.all_zero_of_le_zero_le_of_sum_eq_zero hnn h.symm hz
        have := this _ (List.mem_map.mpr ⟨c, hc, rfl⟩)
        have := pow_eq_zero_iff two_ne_zero |>.mp this
        linarith
      exact hab ((hz a ha).trans (hz b hb).symm)
  have e : rsq (y.map .fin) (fit.map .fin) = .fin (1 - ssq y fit / sstot y) := by
    unfold rsq npMean
    rw [zipWith_fin _ (· - ·) (fun a b => Fl.fin_sub a b), npSum_fin, List.length_map,
      Fl.fin_div _ _ hlen]
    have e1 : (List.map Fl.fin (List.zipWith (· - ·) y fit)).map Fl.sq =
        ((List.zipWith (· - ·) y fit).map (· ^ 2)).map Fl.fin := by
      simp [List.map_map, Function.comp_def]
    have e2 : (y.map Fl.fin).map (fun a => Fl.sq (a - Fl.fin (y.sum / y.length))) =
        (y.map (fun a => (a - y.sum / y.length) ^ 2)).map Fl.fin := by
      simp [List.map_map, Function.comp_def]
    rw [e1, e2, npSum_fin, npSum_fin]
    rw [Fl.fin_div _ _ (by exact hpos.ne'), Fl.fin_sub]
    rfl
  refine ⟨_, e, rfl, ?_, ?_⟩
  · have := div_nonneg (ssq_nonneg y fit) hpos.le
    linarith
  · rw [← ssq_eq_zero y fit hl]
    constructor
    · intro h
      have : ssq y fit / sstot y = 0 := by linarith
      rcases div_eq_zero_iff.mp this with h | h
      · exact h
      · exact absurd h hpos.ne'
    · intro h; rw [h]; simp

/-- weighted sum of squares -/
def chisq (fit y w : List ℝ) : ℝ := ((List.zipWith (· / ·) (List.zipWith (· - ·) fit y) w).map (· ^ 2)).sum

/-- C45: chi^2 per degree of freedom, unweighted. `npar ≤ nobs` is what a successful `make_fit` guarantees. -/
theorem C45_unweighted (y fit : List ℝ) (npar : ℕ) (hl : fit.length = y.length) (hn : npar ≤ y.length) :
    (npar = y.length → chisqDof (y.map .fin) (fit.map .fin) none npar = .pinf) ∧
    (npar < y.length → ∃ c : ℝ, chisqDof (y.map .fin) (fit.map .fin) none npar = .fin c ∧
      c * ((y.length : ℝ) - npar) = ssq fit y ∧ 0 ≤ c ∧ (c = 0 ↔ fit = y)) := by
  constructor
  · rintro rfl; simp [chisqDof]
  · intro hlt
    have hd : ((y.length : ℤ) - npar) ≠ 0 := by omega
    have hr : (0 : ℝ) < (y.length : ℝ) - npar := by
      have : (npar : ℝ) < y.length := by exact_mod_cast hlt
      linarith
    refine ⟨ssq fit y / ((y.length : ℝ) - npar), ?_, by field_simp, div_nonneg (ssq_nonneg _ _) hr.le, ?_⟩
    · unfold chisqDof
      simp only [List.length_map]
      rw [if_neg hd, zipWith_fin _ (· - ·) (fun a b => Fl.fin_sub a b)]
      have e1 : (List.map Fl.fin (List.zipWith (· - ·) fit y)).map Fl.sq =
          ((List.zipWith (· - ·) fit y).map (· ^ 2)).map Fl.fin := by
        simp [List.map_map, Function.comp_def]
      rw [e1, npSum_fin]
      push_cast
      rw [Fl.fin_div _ _ hr.ne']; rfl
    · rw [← ssq_eq_zero fit y hl]
      constructor
      · intro h
        rcases div_eq_zero_iff.mp h with h | h
        · exact h
        · exact absurd h hr.ne'
      · intro h; rw [h]; simp

/-- C45 with weights: each residual is divided by its (non-zero) uncertainty. -/
theorem C45_weighted (y fit w : List ℝ) (npar : ℕ) (hl : fit.length = y.length) (hw : w.length = y.length)
    (hw0 : ∀ a ∈ w, a ≠ 0) (hlt : npar < y.length) :
    ∃ c : ℝ, chisqDof (y.map .fin) (fit.map .fin) (some (w.map .fin)) npar = .fin c ∧
      c * ((y.length : ℝ) - npar) = chisq fit y w ∧ 0 ≤ c ∧ (c = 0 ↔ fit = y) := by
  have hd : ((y.length : ℤ) - npar) ≠ 0 := by omega
  have hr : (0 : ℝ) < (y.length : ℝ) - npar := by
    have : (npar : ℝ) < y.length := by exact_mod_cast hlt
    linarith
  have hdiv : ∀ (r w : List ℝ), (∀ a ∈ w, a ≠ 0) → List.zipWith (· / ·) (r.map Fl.fin) (w.map Fl.fin) =
      (List.zipWith (· / ·) r w).map Fl.fin := by
    intro r
    induction r with
    | nil => intro w _; rfl
    | cons a r ih =>
      intro w hw
      cases w with
      | nil => rfl
      | cons b w =>
        simp only [List.map_cons, List.zipWith_cons_cons]
        rw [Fl.fin_div _ _ (hw b (by simp)), ih w (fun c hc => hw c (by simp [hc]))]
  have hnn : 0 ≤ chisq fit y w := by
    unfold chisq
    apply List.sum_nonneg
    simp only [List.mem_map]
    rintro _ ⟨x, _, rfl⟩; positivity
  have hz : ∀ (f y w : List ℝ), f.length = y.length → w.length = y.length → (∀ a ∈ w, a ≠ 0) →
      (chisq f y w = 0 ↔ f = y) := by
    intro f
    induction f with
    | nil => intro y w h1 _ _; cases y with
      | nil => simp [chisq]
      | cons => simp at h1
    | cons a f ih =>
      intro y w h1 h2 h3
      cases y with
      | nil => simp at h1
      | cons b y =>
        cases w with
        | nil => simp at h2
        | cons c w =>
          have e : chisq (a :: f) (b :: y) (c :: w) = ((a - b) / c) ^ 2 + chisq f y w := by simp [chisq]
          have hn : 0 ≤ chisq f y w := by
            unfold chisq
            apply List.sum_nonneg
            simp only [List.mem_map]
            rintro _ ⟨x, _, rfl⟩; positivity
          have hc := h3 c (by simp)
          rw [e, List.cons.injEq, ← ih y w (by simpa using h1) (by simpa using h2) (fun d hd => h3 d (by simp [hd]))]
          constructor
          · intro h
            have h2 := sq_nonneg ((a - b) / c)
            have h3 : ((a - b) / c) ^ 2 = 0 := by linarith
            have h4 := pow_eq_zero_iff two_ne_zero |>.mp h3
            rcases div_eq_zero_iff.mp h4 with h4 | h4
            · exact ⟨by linarith, by linarith⟩
            · exact absurd h4 hc
          · rintro ⟨rfl, h⟩; simp [h]
  refine ⟨chisq fit y w / ((y.length : ℝ) - npar), ?_, by field_simp, div_nonneg hnn hr.le, ?_⟩
  · unfold chisqDof
    simp only [List.length_map]
    rw [if_neg hd, zipWith_fin _ (· - ·) (fun a b => Fl.fin_sub a b), hdiv _ _ hw0]
    have e1 : (List.map Fl.fin (List.zipWith (· / ·) (List.zipWith (· - ·) fit y) w)).map Fl.sq =
        ((List.zipWith (· / ·) (List.zipWith (· - ·) fit y) w).map (· ^ 2)).map Fl.fin := by
      simp [List.map_map, Function.comp_def]
    rw [e1, npSum_fin]
    push_cast
    rw [Fl.fin_div _ _ hr.ne']; rfl
  · rw [← hz fit y w hl hw hw0]
    constructor
    · intro h
      rcases div_eq_zero_iff.mp h with h | h
      · exact h
      · exact absurd h hr.ne'
    · intro h; rw [h]; simp

example : ∃ R : ℝ, rsq ([1, 2, 4].map .fin) ([1, 2, 3].map .fin) = .fin R ∧ R ≤ 1 := by
  obtain ⟨R, h, _, h2, _⟩ := C44_rsq [1, 2, 4] [1, 2, 3] rfl ⟨1, by simp, 2, by simp, by norm_num⟩
  exact ⟨R, h, h2⟩

end
end SW
