import Verif.FitReport
import Verif.Props.FitRun
import Verif.Props.FitFuncs2

/-!
# C209: what a fit reports about its initial guess
-/

namespace SW
namespace FitRun
open Classical

theorem boundOf_zip : ∀ (names : List String) (W : List (Fl × Fl)), names.Nodup →
    ∀ k w, (k, w) ∈ names.zip W → boundOf (names.zip W) k = .ok w
  | [], _, _, _, _, h => by simp at h
  | _ :: _, [], _, _, _, h => by simp at h
  | n :: ns, v :: W, hn, k, w, h => by
    simp only [List.zip_cons_cons, List.mem_cons, Prod.mk.injEq] at h
    rw [List.nodup_cons] at hn
    by_cases e : n = k
    · rcases h with ⟨_, rfl⟩ | h
      · simp [boundOf, e]
      · exact absurd (List.of_mem_zip h).1 (by rw [← e]; exact hn.1)
    · rcases h with ⟨rfl, _⟩ | h
      · exact absurd rfl e
      · have := boundOf_zip ns W hn.2 k w h
        unfold boundOf at this ⊢
        rw [List.zip_cons_cons, List.find?_cons_of_neg (by simpa using e)]
        exact this

theorem table_zip (b : List (String × Fl × Fl)) : ∀ (names : List String) (g : List Fl) (W : List (Fl × Fl)),
    g.length = names.length → W.length = names.length → (∀ k w, (k, w) ∈ names.zip W → boundOf b k = .ok w) →
    ((names.zip g).mapM (fun p => do
      let w ← boundOf b p.1
      (Except.ok (p.1, p.2, w.1, w.2) : Except PyErr (String × Fl × Fl × Fl)))) = .ok (names.zip (g.zip W))
  | [], _, _, _, _, _ => rfl
  | n :: ns, [], _, hg, _, _ => by simp at hg
  | n :: ns, _ :: _, [], _, hW, _ => by simp at hW
  | n :: ns, a :: g, v :: W, hg, hW, hb => by
    have h0 := hb n v (by simp)
    have ih := table_zip b ns g W (by simpa using hg) (by simpa using hW) (fun k w h => hb k w (by simp [h]))
    rw [List.zip_cons_cons, List.mapM_cons, ih]
    simp only [h0, bind, Except.bind]
    rfl

/-- C209: a fit that returns normally has stored, by name, the parameters found by the optimiser, and its annotation shows them together
with a table of one line per parameter: its name, the guess *of the class* for the data used, and the bounds the optimiser had. -/
theorem C209_report (c : Cls) (hn : c.argnames.Nodup) (o : Obs3)
    (hg : ∀ g, c.guess o = .ok (some g) → g.length = c.argnames.length)
    (solve : List Fl → List Fl → List Fl → Except PyErr (Option (List Fl))) (stats : List Fl → Except PyErr Unit) (q : Req) (ret : Bool)
    (s s' : FObj) (h : fitG c o solve stats q ret s = (s', .ok none)) :
    ∃ g x p lb ub, c.guess o = .ok (some g) ∧ Wellposed c.argnames.length c.curve o q p lb ub ∧ solve p lb ub = .ok (some x) ∧
      s'.popt = some (c.argnames.zip x) ∧ s'.tex = some (c.argnames.zip x, some (c.argnames.zip (g.zip (lb.zip ub)))) ∧
      s'.plotter = true ∧ (q.p0 = .absent → p = g) ∧ (∀ p', q.p0 = .given p' → p = p') := by
  unfold fitG at h
  split_ifs at h with h0 h1
  · cases h
  · cases h
  cases hr : runG c o solve q with
  | error e =>
    rw [hr] at h
    simp only [Prod.mk.injEq] at h
    split_ifs at h
    · simp at h
    · simp at h
  | ok v =>
    obtain ⟨x, p, b⟩ := v
    rw [hr] at h
    simp only at h
    cases hs : stats x with
    | error e => rw [hs] at h; simp at h
    | ok u =>
      rw [hs] at h
      simp only at h
      cases hgu : c.guess o with
      | error e => unfold runG at hr; rw [hgu] at hr; cases hr
      | ok og =>
        cases og with
        | none =>
          simp only [guessInfo, hgu] at h
          simp at h
        | some g =>
          unfold runG at hr
          rw [hgu] at hr
          obtain ⟨lb, ub, hw, hsol, hb, _, hp, hp', _⟩ := C192_wellposed _ _ _ _ _ _ _ _ _ hr
          have hlen : (lb.zip ub).length = c.argnames.length := by
            rw [List.length_zip, hw.len.2.1, hw.len.2.2, min_self]
          have ht := table_zip b c.argnames g (lb.zip ub) (hg g hgu) hlen
            (by rw [hb]; exact fun k w hk => boundOf_zip _ _ hn k w hk)
          have hgi : ∀ t : FObj, t.bounds = some b → guessInfo c o t = .ok (some (c.argnames.zip (g.zip (lb.zip ub)))) := by
            intro t hb'
            simp only [bind, Except.bind] at ht
            simp only [guessInfo, hgu, hb', bind, Except.bind, ht]
          rw [hgi _ rfl] at h
          have h := (Prod.mk.inj h).1
          refine ⟨g, x, p, lb, ub, rfl, hw, hsol, ?_, ?_, ?_, ?_, ?_⟩
          · rw [← h]
          · rw [← h]
          · rw [← h]
          · intro h0
            have := hp h0
            injection this with this
            exact this.symm
          · intro p' h0
            exact (hp' p' h0).symm

/-- the guesses a table of initial guesses shows -/
def shown (t : List (String × Fl × Fl × Fl)) : List Fl := t.map (fun r => r.2.1)

/-- C209 (violated: the table should show the guess the fit was started from): if the caller gives another start than the class's
guess, the fit starts there and the table nevertheless shows the class's guess. -/
theorem C209_not_the_start (c : Cls) (hn : c.argnames.Nodup) (o : Obs3) (g p' : List Fl) (hgu : c.guess o = .ok (some g))
    (hg : g.length = c.argnames.length) (hne : p' ≠ g)
    (solve : List Fl → List Fl → List Fl → Except PyErr (Option (List Fl))) (stats : List Fl → Except PyErr Unit) (q : Req)
    (hq : q.p0 = .given p') (ret : Bool) (s s' : FObj) (h : fitG c o solve stats q ret s = (s', .ok none)) :
    ∃ x lb ub t, solve p' lb ub = .ok (some x) ∧ s'.tex = some (c.argnames.zip x, some t) ∧ shown t = g ∧ shown t ≠ p' := by
  obtain ⟨g', x, p, lb, ub, h1, hw, hsol, _, ht, _, _, hp⟩ := C209_report c hn o
    (fun g' h' => by rw [hgu] at h'; injection h' with h'; injection h' with h'; rw [← h']; exact hg) solve stats q ret s s' h
  rw [hgu] at h1
  injection h1 with h1
  injection h1 with h1
  subst h1
  have hpp := hp p' hq
  subst hpp
  have hs : shown (c.argnames.zip (g.zip (lb.zip ub))) = g := by
    have hl : (lb.zip ub).length = c.argnames.length := by
      rw [List.length_zip, hw.len.2.1, hw.len.2.2, min_self]
    have e : (fun r : String × Fl × Fl × Fl => r.2.1) = Prod.fst ∘ Prod.snd := rfl
    unfold shown
    rw [e, ← List.map_map, List.map_snd_zip (by simp [List.length_zip, hg, hw.len]), List.map_fst_zip (by simp [hg, hw.len])]
  exact ⟨x, lb, ub, _, hsol, ht, hs, by rw [hs]; exact fun e => hne e.symm⟩

/-- C209 (violated: `None` means "use the optimiser's default start"): with a class that has no guess for the data, `make_fit` never
returns normally; after a successful optimisation it raises TypeError whatever `return_exception` says, with the new parameters and
bounds stored beside the annotation and plotter of before; `dof` raises TypeError. -/
theorem C209_no_guess (c : Cls) (o : Obs3) (hgu : c.guess o = .ok none)
    (solve : List Fl → List Fl → List Fl → Except PyErr (Option (List Fl))) (stats : List Fl → Except PyErr Unit) (q : Req) (ret : Bool)
    (s : FObj) :
    (fitG c o solve stats q ret s).2 ≠ .ok none ∧ (fitG c o solve stats q ret s).1.tex = s.tex ∧
    (fitG c o solve stats q ret s).1.plotter = s.plotter ∧ dof c o = .error .typeError ∧
    (∀ x p b, c.argnames.length ≤ o.y.length → runG c o solve q = .ok (x, p, b) → stats x = .ok () →
      fitG c o solve stats q ret s = ({ s with bounds := some b, popt := some (c.argnames.zip x) }, .error .typeError)) := by
  have hi : ∀ (t : FObj) b, t.bounds = some b → guessInfo c o t = .error .typeError := by
    intro t b hb
    simp only [guessInfo, hgu, hb]
  refine ⟨?_, ?_, ?_, by simp [dof, hgu], ?_⟩
  · unfold fitG
    split_ifs
    · simp
    · simp
    · cases hr : runG c o solve q with
      | error e => simp only; split_ifs <;> simp
      | ok v =>
        obtain ⟨x, p, b⟩ := v
        simp only
        cases hs : stats x with
        | error e => simp
        | ok u => simp only; rw [hi _ b rfl]; simp
  · unfold fitG
    split_ifs
    · rfl
    · rfl
    · cases hr : runG c o solve q with
      | error e => simp only
      | ok v =>
        obtain ⟨x, p, b⟩ := v
        simp only
        cases hs : stats x with
        | error e => simp
        | ok u => simp only; rw [hi _ b rfl]
  · unfold fitG
    split_ifs
    · rfl
    · rfl
    · cases hr : runG c o solve q with
      | error e => simp only
      | ok v =>
        obtain ⟨x, p, b⟩ := v
        simp only
        cases hs : stats x with
        | error e => simp
        | ok u => simp only; rw [hi _ b rfl]
  · intro x p b hl hr hs
    unfold fitG
    rw [if_neg (by omega), hr]
    simp only [hs]
    rw [hi _ b rfl]

/-- C209: without a guess of the class (and without a start from the caller) the optimiser starts from the middle of the bounds of each
parameter — 1 if it is unbounded, one step inside a single bound —, which respects the bounds. -/
theorem C209_default_start (c : Cls) (o : Obs3) (hgu : c.guess o = .ok none)
    (solve : List Fl → List Fl → List Fl → Except PyErr (Option (List Fl))) (q : Req) (hq : q.p0 = .absent) (x p : List Fl)
    (b : List (String × Fl × Fl)) (h : runG c o solve q = .ok (x, p, b)) :
    ∃ lb ub, solve p lb ub = .ok (some x) ∧ p = List.zipWith feasible lb ub ∧ p.length = c.argnames.length ∧
      (∀ w ∈ lb.zip p, Fl.le w.1 w.2) ∧ (∀ w ∈ p.zip ub, Fl.le w.1 w.2) ∧
      (q.bounds = .scalar .ninf .pinf → p = List.replicate c.argnames.length (.fin 1)) := by
  unfold runG at h
  rw [hgu] at h
  simp only [hq] at h
  obtain ⟨q', hq'⟩ : ∃ q' : Req, q' = { q with p0 := .none } := ⟨_, rfl⟩
  have hb' : q'.bounds = q.bounds := by rw [hq']
  have hp' : q'.p0 = .none := by rw [hq']
  rw [← hq'] at h
  have h2 := h
  unfold run at h2
  simp only [bind, Except.bind, hp'] at h2
  split at h2
  · cases h2
  · rename_i v hv
    obtain ⟨lb, ub⟩ := v
    simp only [pure, Except.pure] at h2
    by_cases ha : q'.args = true
    · rw [if_pos ha] at h2; cases h2
    · rw [if_neg ha] at h2
      split at h2
      · cases h2
      · rename_i hc
        cases hs : solve (List.zipWith feasible lb ub) lb ub with
        | error e => rw [hs] at h2; cases h2
        | ok r =>
          rw [hs] at h2
          cases r with
          | none => cases h2
          | some y =>
            simp only [Except.ok.injEq, Prod.mk.injEq] at h2
            obtain ⟨rfl, rfl, _⟩ := h2
            have hw := (checks_iff _ _ _ _ _ _ _).mp hc
            refine ⟨lb, ub, hs, rfl, hw.len.1, ?_, ?_, ?_⟩
            · exact hw.lower
            · exact hw.upper
            · intro hb
              rw [hb', hb] at hv
              simp only [prepare, Except.ok.injEq, Prod.mk.injEq] at hv
              rw [← hv.1, ← hv.2]
              simp [feasible]

theorem dxOk_fin : ∀ xs : List ℝ, dxOk (xs.map Fl.fin) ↔ List.IsChain (fun a b => a ≠ b) xs
  | [] => by simp [dxOk, ediff1d]
  | [a] => by simp [dxOk, ediff1d]
  | a :: b :: xs => by
    have ih := dxOk_fin (b :: xs)
    have hd : ediff1d ((a :: b :: xs).map Fl.fin) = Fl.fin (b - a) :: ediff1d ((b :: xs).map Fl.fin) := rfl
    unfold dxOk at ih ⊢
    rw [hd, List.forall_mem_cons, ih, List.isChain_cons_cons]
    refine and_congr_left fun _ => ?_
    simp only [Fl.isFinite, true_and, Fl.abs, Fl.lt, abs_pos, sub_ne_zero]
    exact ⟨fun h e => h e.symm, fun h e => h e.symm⟩

/-- C209: a line has no guess exactly if there are two neighbouring observations at the same abscissa, whatever the ordinates. -/
theorem C209_line (xs ys : List ℝ) (w : Option (List Fl)) (hl : 2 ≤ xs.length) (c : Cls) (hc : c = lineCls ∨ c = lineXCls) :
    c.guess ⟨xs.map .fin, ys.map .fin, w⟩ = .ok none ↔ ∃ k a, xs[k]? = some a ∧ xs[k + 1]? = some a := by
  have h1 : c.guess ⟨xs.map .fin, ys.map .fin, w⟩ = .ok none ↔ ¬ dxOk (xs.map Fl.fin) := by
    have h2 : ¬ (xs.map Fl.fin).length < 2 := by simp; omega
    rcases hc with rfl | rfl
    · simp only [lineCls, lineP0]
      rw [if_neg h2]
      by_cases hd : dxOk (xs.map Fl.fin) <;> simp [hd]
    · simp only [lineXCls, lineXP0]
      rw [if_neg h2]
      by_cases hd : dxOk (xs.map Fl.fin) <;> simp [hd]
  rw [h1, dxOk_fin, List.isChain_iff_getElem]
  push Not
  constructor
  · rintro ⟨i, hi, he⟩
    refine ⟨i, xs[i]'(by omega), List.getElem?_eq_getElem (by omega), ?_⟩
    rw [List.getElem?_eq_getElem hi, he]
  · rintro ⟨k, a, h1, h2⟩
    obtain ⟨hk, e2⟩ := List.getElem?_eq_some_iff.mp h2
    obtain ⟨hk1, e1⟩ := List.getElem?_eq_some_iff.mp h1
    exact ⟨k, hk, e1.trans e2.symm⟩

/-- C209: otherwise the degrees of freedom are the number of observations used minus the number of parameters, never negative; too few
observations are refused. -/
theorem C209_dof (o : Obs3) (hxy : o.x.length = o.y.length) (c : Cls) (hc : c = lineCls ∨ c = lineXCls ∨ c = expCls)
    (h : c.guess o ≠ .ok none) :
    dof c o = if o.y.length < 2 then .error .insufficientData else .ok ((o.y.length : ℤ) - 2) := by
  rcases hc with rfl | rfl | rfl
  · simp only [dof, lineCls, lineP0] at h ⊢
    rw [hxy] at h ⊢
    by_cases hl : o.y.length < 2
    · simp [hl]
    · simp only [hl, if_false] at h ⊢
      by_cases hd : dxOk o.x
      · simp [hd]
      · simp [hd] at h
  · simp only [dof, lineXCls, lineXP0] at h ⊢
    rw [hxy] at h ⊢
    by_cases hl : o.y.length < 2
    · simp [hl]
    · simp only [hl, if_false] at h ⊢
      by_cases hd : dxOk o.x
      · simp [hd]
      · simp [hd] at h
  · simp only [dof, expCls] at h ⊢
    rw [hxy] at h ⊢
    by_cases hl : o.y.length < 2
    · simp [hl]
    · simp [hl]

/-- C209: before the first fit there is no table of guesses (`None`), for every class whose guess can be computed. -/
theorem C209_before (c : Cls) (o : Obs3) (g : Option (List Fl)) (hg : c.guess o = .ok g) : guessInfo c o {} = .ok none := by
  simp only [guessInfo, hg]

/-! ### Non-vacuity -/

/-- a line through (0,1), (1,2), fitted from the start (5, 5) by an optimiser that finds (1, 1) -/
example : ∃ s', fitG lineCls ⟨[.fin 0, .fin 1], [.fin 1, .fin 2], none⟩ (fun _ _ _ => .ok (some [.fin 1, .fin 1])) (fun _ => .ok ())
    { p0 := .given [.fin 5, .fin 5] } false {} = (s', .ok none) := by
  have hd : dxOk [Fl.fin 0, Fl.fin 1] := by
    have := (dxOk_fin [0, 1]).mpr (by simp)
    simpa using this
  have hgu : lineCls.guess ⟨[.fin 0, .fin 1], [.fin 1, .fin 2], none⟩ =
      .ok (some [(lineGuess [.fin 0, .fin 1] [.fin 1, .fin 2]).1, (lineGuess [.fin 0, .fin 1] [.fin 1, .fin 2]).2]) := by
    simp [lineCls, lineP0, hd]
  have hrun : runG lineCls ⟨[.fin 0, .fin 1], [.fin 1, .fin 2], none⟩ (fun _ _ _ => .ok (some [.fin 1, .fin 1]))
      { p0 := .given [.fin 5, .fin 5] } = .ok ([.fin 1, .fin 1], [.fin 5, .fin 5], [("m", .ninf, .pinf), ("b", .ninf, .pinf)]) := by
    unfold runG
    rw [hgu]
    have hc : scipyChecks 2 lineCls.curve ⟨[.fin 0, .fin 1], [.fin 1, .fin 2], none⟩ { p0 := .given [.fin 5, .fin 5] }
        [.fin 5, .fin 5] [.ninf, .ninf] [.pinf, .pinf] = .ok () := by
      rw [checks_iff]
      refine ⟨by simp, by simp [Ordered, Fl.lt], by simp [Fl.le], by simp [Fl.le], ?_, by simp, by simp, by simp⟩
      simp [residuals, lineCls, Fl.fin_mul, Fl.fin_add, Fl.fin_sub, Fl.isFinite]
    simp only [run, bind, Except.bind, prepare, lineCls, List.length_cons, List.length_nil, List.replicate]
    simp only [lineCls] at hc
    rw [if_neg (by simp)]
    simp only [pure, Except.pure]
    rw [hc]
    rfl
  unfold fitG
  rw [if_neg (by simp [lineCls]), hrun]
  simp only [guessInfo, hgu]
  exact ⟨_, rfl⟩

example : lineCls.guess ⟨[.fin 0, .fin 0, .fin 1], [.fin 1, .fin 2, .fin 3], none⟩ = .ok none := by
  have := (C209_line [0, 0, 1] [1, 2, 3] none (by simp) lineCls (Or.inl rfl)).mpr ⟨0, 0, rfl, rfl⟩
  simpa using this

example : lineCls.argnames.Nodup ∧ lineXCls.argnames.Nodup ∧ expCls.argnames.Nodup := by simp [lineCls, lineXCls, expCls]

end FitRun
end SW
