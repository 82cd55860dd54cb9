import Verif.TrendFit
import Verif.Props.FitCore

/-!
# C46 - C49: one-dimensional fits of a trend fit
-/

namespace SW
noncomputable section
open Classical

variable {κ ρ : Type}

/-! ### Helpers -/

theorem fitColumns_ok {g : FFObj ρ → Except PyErr (FFObj ρ × Option PyErr)} {l : List (κ × FFObj ρ)}
    {out : List (κ × FFObj ρ × Option PyErr)} (h : fitColumns g l = .ok out) :
    List.Forall₂ (fun kf t => t.1 = kf.1 ∧ g kf.2 = .ok t.2) l out := by
  induction l generalizing out with
  | nil => cases h; exact .nil
  | cons kf l ih =>
    obtain ⟨k, f⟩ := kf
    unfold fitColumns at h
    cases hg : g f with
    | error e => rw [hg] at h; cases h
    | ok v =>
      rw [hg] at h
      cases hr : fitColumns g l with
      | error e => rw [hr] at h; cases h
      | ok rest =>
        rw [hr] at h
        cases h
        exact .cons ⟨rfl, hg⟩ (ih hr)

theorem fitColumns_congr {g g' : FFObj ρ → Except PyErr (FFObj ρ × Option PyErr)} {l : List (κ × FFObj ρ)}
    (h : ∀ kf ∈ l, g kf.2 = g' kf.2) : fitColumns g l = fitColumns g' l := by
  induction l with
  | nil => rfl
  | cons kf l ih =>
    obtain ⟨k, f⟩ := kf
    unfold fitColumns
    rw [h (k, f) (by simp), ih (fun x hx => h x (by simp [hx]))]

theorem seq_eq {cls : FFClass ρ} {jl ret : Bool} {nj : ℤ} {ffs : List (κ × FFObj ρ)}
    (h : nj = 1 ∨ (1 < ffs.length ∧ jl = false)) :
    make1dFits cls jl nj ret ffs = (fitColumns (cls.fit ret) ffs).map splitFits := by
  unfold make1dFits
  have e : (do return splitFits (← fitColumns (cls.fit ret) ffs)) = (fitColumns (cls.fit ret) ffs).map splitFits := by
    cases fitColumns (cls.fit ret) ffs <;> rfl
  rcases h with h | ⟨h1, h2⟩
  · rw [if_neg (by rintro ⟨h', _⟩; exact h' h), if_pos h]; exact e
  · by_cases hj : nj = 1
    · rw [if_neg (by rintro ⟨h', _⟩; exact h' hj), if_pos hj]; exact e
    · rw [if_pos ⟨hj, h1⟩, h2]; exact e

theorem par_eq {cls : FFClass ρ} {ret : Bool} {nj : ℤ} {ffs : List (κ × FFObj ρ)} (h1 : nj ≠ 1)
    (h2 : 1 < ffs.length) :
    make1dFits cls true nj ret ffs = (fitColumns (parallelWorker cls ret) ffs).map splitFits := by
  unfold make1dFits
  rw [if_pos ⟨h1, h2⟩, if_pos rfl]
  cases fitColumns (parallelWorker cls ret) ffs <;> rfl

/-! ### C46 -/

/-- C46: on the sequential path every column ends in exactly one of `ffuncs` / `bad_fits`, in the original order:
in `bad_fits` iff its `make_fit` returned an exception. Labels and observations are unchanged. -/
theorem C46_partition (cls : FFClass ρ) (jl ret : Bool) (ffs : List (κ × FFObj ρ)) (t : TrendRes κ ρ)
    (h : make1dFits cls jl 1 ret ffs = .ok t) :
    ∃ out : List (κ × FFObj ρ × Option PyErr),
      -- one entry per column, in order, holding what make_fit left behind and returned
      List.Forall₂ (fun kf o => o.1 = kf.1 ∧ cls.fit ret kf.2 = .ok o.2 ∧ o.2.1.obs = kf.2.obs) ffs out ∧
      t.ffuncs = (out.filter (fun o => o.2.2.isNone)).map (fun o => (o.1, o.2.1)) ∧
      t.bad = (out.filter (fun o => o.2.2.isSome)).map (fun o => (o.1, o.2.1)) ∧
      t.ffuncs.length + t.bad.length = ffs.length ∧
      (t.ffuncs.map Prod.fst).Sublist (ffs.map Prod.fst) ∧ (t.bad.map Prod.fst).Sublist (ffs.map Prod.fst) ∧
      ((ffs.map Prod.fst).Nodup → ∀ k ∈ ffs.map Prod.fst,
        (k ∈ t.ffuncs.map Prod.fst ∧ k ∉ t.bad.map Prod.fst) ∨
        (k ∉ t.ffuncs.map Prod.fst ∧ k ∈ t.bad.map Prod.fst)) := by
  rw [seq_eq (Or.inl rfl)] at h
  cases hc : fitColumns (cls.fit ret) ffs with
  | error e => rw [hc] at h; cases h
  | ok out =>
    rw [hc] at h
    have ht : t = splitFits out := (Except.ok.inj h).symm
    subst ht
    have hF := fitColumns_ok hc
    have hkeys : out.map Prod.fst = ffs.map Prod.fst := by
      clear hc h
      induction hF with
      | nil => rfl
      | cons h _ ih => simp [h.1, ih]
    have hobs : ∀ (f : FFObj ρ) (v : FFObj ρ × Option PyErr), cls.fit ret f = .ok v → v.1.obs = f.obs := by
      intro f v hv
      unfold FFClass.fit at hv
      simp only [] at hv
      split at hv
      · cases hv
      · have := Except.ok.inj hv
        rw [← this]
    refine ⟨out, ?_, rfl, rfl, ?_, ?_, ?_, ?_⟩
    · exact hF.imp (fun _ _ h => ⟨h.1, h.2, hobs _ _ h.2⟩)
    · have : out.length = ffs.length := hF.length_eq.symm
      unfold splitFits
      simp only [List.length_map]
      rw [← this, ← List.countP_eq_length_filter, ← List.countP_eq_length_filter,
        List.length_eq_countP_add_countP (fun o => o.2.2.isNone)]
      congr 1
      apply List.countP_congr
      intro o _
      cases o.2.2 <;> simp
    · rw [← hkeys]
      unfold splitFits
      simp only [List.map_map]
      exact (List.filter_sublist (l := out)).map _
    · rw [← hkeys]
      unfold splitFits
      simp only [List.map_map]
      exact (List.filter_sublist (l := out)).map _
    · rw [← hkeys]
      intro hnd k hk
      obtain ⟨o, ho, rfl⟩ := List.mem_map.mp hk
      have huniq : ∀ o' ∈ out, o'.1 = o.1 → o' = o := by
        intro o' ho' he
        exact List.inj_on_of_nodup_map hnd ho' ho he
      unfold splitFits
      simp only [List.map_map]
      cases hv : o.2.2 with
      | none =>
        left
        refine ⟨List.mem_map.mpr ⟨o, List.mem_filter.mpr ⟨ho, by simp [hv]⟩, rfl⟩, ?_⟩
        intro hb
        obtain ⟨o', ho', he⟩ := List.mem_map.mp hb
        obtain ⟨h1, h2⟩ := List.mem_filter.mp ho'
        have := huniq o' h1 he
        rw [this, hv] at h2; simp at h2
      | some e =>
        right
        refine ⟨?_, List.mem_map.mpr ⟨o, List.mem_filter.mpr ⟨ho, by simp [hv]⟩, rfl⟩⟩
        intro hb
        obtain ⟨o', ho', he⟩ := List.mem_map.mp hb
        obtain ⟨h1, h2⟩ := List.mem_filter.mp ho'
        have := huniq o' h1 he
        rw [this, hv] at h2; simp at h2

/-- C46: for a class that reports its failures, the bad columns are exactly those with too few observations or
whose optimiser raised RuntimeError/ValueError/FitFailedError, and every good column holds the results of its own
optimiser run on its own used observations. -/
theorem C46_outcome (cls : FFClass ρ) (hs : cls.swallows = false) (f : FFObj ρ) (v : FFObj ρ × Option PyErr)
    (h : cls.fit true f = .ok v) :
    (v.2 = none ↔ cls.npar ≤ f.obs.nobs ∧ ∃ b r, cls.solve f.obs.used = .optOk b (.ok r) (.ok ()) ∧
      v.1.st.results = some r) ∧
    (∀ e, v.2 = some e ↔ (f.obs.nobs < cls.npar ∧ e = .insufficientData) ∨
      (cls.npar ≤ f.obs.nobs ∧ cls.solve f.obs.used = .optRaises e ∧
        (e = .runtimeError ∨ e = .notImplemented ∨ e = .valueError ∨ e = .fitFailed))) := by
  unfold FFClass.fit makeFit at h
  simp only [hs] at h
  by_cases hn : cls.npar ≤ f.obs.nobs
  · rw [if_neg (not_not.mpr hn)] at h
    have hn' : ¬ f.obs.nobs < cls.npar := by omega
    cases ho : cls.solve f.obs.used with
    | optRaises e' =>
      simp only [ho, Bool.false_eq_true, if_false] at h
      by_cases hc : caughtByFit e'
      · simp only [hc, true_and, if_true] at h
        have := Except.ok.inj h
        rw [← this]
        constructor
        · simp
        · intro e
          simp only [hn', false_and, false_or, hn, true_and, FitOutcome.optRaises.injEq]
          constructor
          · intro he
            have := Option.some.inj he
            subst this
            exact ⟨rfl, hc⟩
          · rintro ⟨rfl, _⟩; rfl
      · simp only [hc, false_and, if_false] at h
        cases h
    | optOk b stats rep =>
      simp only [ho, Bool.false_eq_true, if_false] at h
      rcases stats with e' | r
      · cases h
      · rcases rep with e' | ⟨⟩
        · cases h
        · have := Except.ok.inj h
          rw [← this]
          constructor
          · simp [hn]
          · intro e; simp [hn']
  · rw [if_pos hn] at h
    simp only [if_true] at h
    have hn' : f.obs.nobs < cls.npar := by omega
    have := Except.ok.inj h
    rw [← this]
    constructor
    · simp [hn]
    · intro e
      simp [hn', hn, eq_comm]

/-! ### C47 -/

/-- the positions of observations with finite x and y -/
def finiteIdx (x y : List Fl) : List ℕ :=
  (List.range x.length).filter (fun k => decide ((x.getD k .nan).isFinite ∧ (y.getD k .nan).isFinite))

/-- C47 (violated): on the parallel path every column is refitted on *all* observations with finite x and y --
whatever limits or weights the column's function was built with. -/
theorem C47_parallel_ignores_limits (cls : FFClass ρ) (ret : Bool) (f : FFObj ρ) (v : FFObj ρ × Option PyErr)
    (hl : f.obs.raw.x.length = f.obs.raw.y.length) (h : parallelWorker cls ret f = .ok v) :
    v.1.obs.used = ⟨(finiteIdx f.obs.raw.x f.obs.raw.y).map (f.obs.raw.x.getD · .nan),
      (finiteIdx f.obs.raw.x f.obs.raw.y).map (f.obs.raw.y.getD · .nan), none⟩ := by
  unfold parallelWorker FFClass.construct at h
  cases ho : setFitObs (.of f.obs.raw.x) (.of f.obs.raw.y) (Option.map NArr.of none) {} with
  | error e => rw [ho] at h; cases h
  | ok o =>
    rw [ho] at h
    simp only [bind, Except.bind, pure, Except.pure] at h
    unfold FFClass.fit at h
    simp only [] at h
    split at h
    · cases h
    · have := Except.ok.inj h
      rw [← this]
      simp only []
      have e := setFitObs_eq (.of f.obs.raw.x) (.of f.obs.raw.y) none {} (by simp [NArr.of, hl]) (by simp) (by simp)
        (by simp [GoodPair]) (by simp [GoodPair])
      simp only [] at e
      rw [Option.map_none] at ho
      rw [ho] at e
      have e' := Except.ok.inj e
      rw [e']
      simp only [NArr.of, Selected, Within, Outside]
      simp [finiteIdx]

/-- C47: so whenever the limits of a column exclude a finite observation, the parallel fit uses a different
(larger) data set than the sequential fit would. -/
theorem C47_different_data (cls : FFClass ρ) (ret : Bool) (x y : List Fl) (w : Option (List Fl)) (L : Limits)
    (f : FFObj ρ) (hl : x.length = y.length) (hf : cls.construct x y w L = .ok f) (v : FFObj ρ × Option PyErr)
    (h : parallelWorker cls ret f = .ok v) (k : ℕ) (hk : k < x.length)
    (hfx : (x.getD k .nan).isFinite) (hfy : (y.getD k .nan).isFinite)
    (hex : ¬ Selected L (x.getD k .nan) (y.getD k .nan) (w.map (fun w' => w'.getD k .nan))) :
    f.obs.used.x.length < v.1.obs.used.x.length ∧ v.1.obs.used.w = none := by
  unfold FFClass.construct at hf
  cases ho : setFitObs (.of x) (.of y) (w.map .of) L with
  | error e => rw [ho] at hf; cases hf
  | ok o =>
    rw [ho] at hf
    have hfo : f.obs = o := by have := Except.ok.inj hf; rw [← this]
    obtain ⟨idx, h1, h2, h3, h4, h5, h6, h7, h8, -⟩ := C40_selection _ _ _ _ _ ho
    have hrx : f.obs.raw.x = x := by rw [hfo, h6]; rfl
    have hry : f.obs.raw.y = y := by rw [hfo, h7]; rfl
    have hp := C47_parallel_ignores_limits cls ret f v (by rw [hrx, hry, hl]) h
    rw [hp, hrx, hry, hfo, h3]
    simp only [List.length_map, and_true]
    have hsub : idx ⊆ finiteIdx x y := by
      intro j hj
      obtain ⟨hj1, hj2⟩ := (h2 j).mp hj
      simp only [finiteIdx, List.mem_filter, List.mem_range, decide_eq_true_eq]
      exact ⟨hj1, hj2.1.1, hj2.2.1.1⟩
    have hkin : k ∈ finiteIdx x y := by
      simp only [finiteIdx, List.mem_filter, List.mem_range, decide_eq_true_eq]
      exact ⟨hk, hfx, hfy⟩
    have hknot : k ∉ idx := by
      intro hkk
      have hsel := ((h2 k).mp hkk).2
      have hw : Option.map (fun w' : NArr => w'.data.getD k .nan) (Option.map NArr.of w) =
          w.map (fun w' => w'.getD k .nan) := by cases w <;> rfl
      rw [hw] at hsel
      exact hex hsel
    have hnd : idx.Nodup := h1.imp (fun h => ne_of_lt h)
    have hsub' : (k :: idx).Subperm (finiteIdx x y) :=
      (List.nodup_cons.mpr ⟨hknot, hnd⟩).subperm (by
        intro j hj
        rcases List.mem_cons.mp hj with rfl | hj
        · exact hkin
        · exact hsub hj)
    have := hsub'.length_le
    simp at this
    omega

/-- C47: the two paths do agree when every column was built without weights and without limits. -/
theorem C47_agree_without_limits (cls : FFClass ρ) (ret : Bool) (nj : ℤ) (hn : nj ≠ 1)
    (cols : List (κ × List Fl × List Fl)) (ffs : List (κ × FFObj ρ)) (h2 : 1 < ffs.length)
    (hb : List.Forall₂ (fun c kf => cls.construct c.2.1 c.2.2 none {} = .ok kf.2 ∧ c.1 = kf.1) cols ffs) :
    make1dFits cls true nj ret ffs = make1dFits cls true 1 ret ffs := by
  rw [par_eq hn h2, seq_eq (Or.inl rfl)]
  congr 1
  apply fitColumns_congr
  intro kf hkf
  clear h2
  have : ∃ c : κ × List Fl × List Fl, cls.construct c.2.1 c.2.2 none {} = .ok kf.2 := by
    induction hb with
    | nil => simp at hkf
    | cons h _ ih =>
      rcases List.mem_cons.mp hkf with rfl | hkf
      · exact ⟨_, h.1⟩
      · exact ih hkf
  obtain ⟨c, hc⟩ := this
  have hc' := hc
  unfold FFClass.construct at hc
  cases ho : setFitObs (.of c.2.1) (.of c.2.2) (Option.map NArr.of none) {} with
  | error e => rw [ho] at hc; cases hc
  | ok o =>
    rw [ho] at hc
    have hfo : kf.2.obs = o := by have := Except.ok.inj hc; rw [← this]
    obtain ⟨idx, -, -, -, -, -, h6, h7, -⟩ := C40_selection _ _ _ _ _ ho
    have hrx : kf.2.obs.raw.x = c.2.1 := by rw [hfo, h6]; rfl
    have hry : kf.2.obs.raw.y = c.2.2 := by rw [hfo, h7]; rfl
    unfold parallelWorker
    rw [hrx, hry, hc']
    rfl

/-! ### C48 -/

/-- C48 (violated): with `n_jobs ≠ 1` and at most one column `make_1dfits` raises UnboundLocalError, whether or not
joblib is installed. -/
theorem C48_crash (cls : FFClass ρ) (jl ret : Bool) (nj : ℤ) (ffs : List (κ × FFObj ρ)) (hn : nj ≠ 1)
    (hl : ffs.length ≤ 1) : make1dFits cls jl nj ret ffs = .error .unboundLocal := by
  unfold make1dFits
  rw [if_neg (by rintro ⟨_, h⟩; omega), if_neg hn]

/-! ### C49 -/

/-- C49 (violated): for a class whose `make_fit` drops the returned exception (Gaussian, the default 1-D
function), `bad_fits` is empty and every column stays in `ffuncs`, whatever failed. -/
theorem C49_failures_hidden (cls : FFClass ρ) (hs : cls.swallows = true) (jl ret : Bool) (nj : ℤ)
    (ffs : List (κ × FFObj ρ)) (t : TrendRes κ ρ) (h : make1dFits cls jl nj ret ffs = .ok t) :
    t.bad = [] ∧ t.ffuncs.map Prod.fst = ffs.map Prod.fst := by
  have hfit : ∀ (f : FFObj ρ) (v : FFObj ρ × Option PyErr), cls.fit ret f = .ok v → v.2 = none := by
    intro f v hv
    unfold FFClass.fit at hv
    simp only [hs, if_true] at hv
    split at hv
    · cases hv
    · have := Except.ok.inj hv; rw [← this]
  have hpar : ∀ (f : FFObj ρ) (v : FFObj ρ × Option PyErr), parallelWorker cls ret f = .ok v → v.2 = none := by
    intro f v hv
    unfold parallelWorker at hv
    cases hc : cls.construct f.obs.raw.x f.obs.raw.y none {} with
    | error e => rw [hc] at hv; cases hv
    | ok f' => rw [hc] at hv; exact hfit f' v hv
  have key : ∀ g : FFObj ρ → Except PyErr (FFObj ρ × Option PyErr), (∀ f v, g f = .ok v → v.2 = none) →
      ∀ t, (fitColumns g ffs).map splitFits = .ok t → t.bad = [] ∧ t.ffuncs.map Prod.fst = ffs.map Prod.fst := by
    intro g hg t ht
    cases hc : fitColumns g ffs with
    | error e => rw [hc] at ht; cases ht
    | ok out =>
      rw [hc] at ht
      have := Except.ok.inj ht
      rw [← this]
      have hF := fitColumns_ok hc
      clear hc ht this h
      induction hF with
      | nil => exact ⟨rfl, rfl⟩
      | cons hh _ ih =>
        have hv := hg _ _ hh.2
        unfold splitFits at ih ⊢
        simp only [List.filter_cons, hv, Option.isSome_none, Bool.false_eq_true, if_false, Option.isNone_none,
          if_true, List.map_cons, hh.1] at ih ⊢
        exact ⟨ih.1, by rw [ih.2]⟩
  by_cases hcase : nj = 1 ∨ (1 < ffs.length ∧ jl = false)
  · rw [seq_eq hcase] at h
    exact key _ hfit t h
  · have h1 : nj ≠ 1 := fun hh => hcase (Or.inl hh)
    by_cases h2 : 1 < ffs.length
    · have hj : jl = true := by
        cases jl
        · exact absurd (Or.inr ⟨h2, rfl⟩) hcase
        · rfl
      rw [hj, par_eq h1 h2] at h
      exact key _ hpar t h
    · rw [C48_crash cls jl ret nj ffs h1 (by omega)] at h
      cases h

/-- C49, consequence: one failed column is enough to make reading `popt_1d` (and so building the trend) raise
AttributeError. -/
theorem C49_popt_crashes (t : TrendRes κ ρ) (h : ∃ kf ∈ t.ffuncs, kf.2.st.results = none) :
    popt1d t = .error .attributeError := by
  unfold popt1d
  obtain ⟨kf, hm, hr⟩ := h
  generalize t.ffuncs = l at hm
  induction l with
  | nil => simp at hm
  | cons a l ih =>
    obtain ⟨k, f⟩ := a
    rw [List.mapM_cons]
    rcases List.mem_cons.mp hm with rfl | hm
    · simp only [] at hr
      simp only [hr]; rfl
    · have := ih hm
      cases hfr : f.st.results with
      | none => simp only [hfr]; rfl
      | some r =>
        simp only [hfr, bind, Except.bind, this]

/-- non-vacuity: a Gaussian-like class whose single column has too few points is reported as good -/
example : ∃ t, make1dFits (κ := ℕ) (ρ := Unit) ⟨3, fun _ => .optRaises .fitFailed, true⟩ true 1 true
    [(0, ⟨⟨⟨[], [], none⟩, ⟨[], [], none⟩, []⟩, {}⟩)] = .ok t ∧ t.bad = [] ∧ t.ffuncs.length = 1 :=
  ⟨_, rfl, rfl, rfl⟩

end
end SW
