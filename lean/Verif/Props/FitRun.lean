import Verif.FitRun
import Verif.Props.FitCore
import Mathlib.Data.List.ReduceOption
import Mathlib.Tactic.Linarith
import Mathlib.Tactic.Positivity
import Mathlib.Tactic.FieldSimp
import Mathlib.Tactic.Ring

/-!
# C192-C194: what is handed to the optimiser, what is minimised, and the trend function
-/

namespace SW
namespace FitRun
open Classical

/-! ### C192: the problem handed to the optimiser -/

/-- a lower limit below an upper one, both possibly infinite -/
def Ordered (b : Fl × Fl) : Prop := Fl.lt b.1 b.2

/-- C192: the start chosen for `p0=None` lies within the bounds, whatever they are. -/
theorem C192_start (lo hi : Fl) (h : Ordered (lo, hi)) :
    ∃ a : ℝ, feasible lo hi = .fin a ∧ Fl.lt lo (.fin a) ∧ Fl.lt (.fin a) hi := by
  unfold Ordered at h
  cases lo <;> cases hi <;> simp [Fl.lt] at h <;> simp [feasible, Fl.lt]
  constructor <;> linarith

/-- C192: that start is 1 without bounds, one unit inside the only finite bound, and the middle of two. -/
theorem C192_start_value (a b : ℝ) :
    feasible .ninf .pinf = .fin 1 ∧ feasible (.fin a) .pinf = .fin (a + 1) ∧ feasible .ninf (.fin b) = .fin (b - 1) ∧
    ∃ m, feasible (.fin a) (.fin b) = .fin m ∧ m - a = b - m := by
  refine ⟨rfl, rfl, rfl, _, rfl, ?_⟩
  norm_num
  ring

/-- C192: Levenberg-Marquardt with a bounded parameter is a `ValueError`, not a fit that ignores the bounds. -/
theorem C192_lm_bounds (npar : Nat) (f : List Fl → Fl → Fl) (o : Obs3) (q : Req) (p lb ub : List Fl) (hm : q.method = "lm")
    (hb : (∃ b ∈ lb, b ≠ .ninf) ∨ (∃ b ∈ ub, b ≠ .pinf)) : scipyChecks npar f o q p lb ub = .error .valueError := by
  unfold scipyChecks
  by_cases h1 : q.method ≠ "trf" ∧ q.method ≠ "dogbox" ∧ q.method ≠ "lm"
  · rw [if_pos h1]
  rw [if_neg h1]
  by_cases h2 : q.loss ≠ "linear" ∧ q.loss ≠ "huber" ∧ q.loss ≠ "soft_l1" ∧ q.loss ≠ "cauchy" ∧ q.loss ≠ "arctan"
  · rw [if_pos h2]
  rw [if_neg h2]
  by_cases h3 : q.method = "lm" ∧ q.loss ≠ "linear"
  · rw [if_pos h3]
  rw [if_neg h3]
  by_cases h4 : lb.length ≠ p.length ∨ ub.length ≠ p.length
  · rw [if_pos h4]
  rw [if_neg h4, if_pos ⟨hm, hb⟩]

example (f : List Fl → Fl → Fl) (o : Obs3) : scipyChecks 1 f o { method := "lm", loss := "linear" } [.fin 2] [.fin 0] [.pinf] =
    .error .valueError :=
  C192_lm_bounds _ _ _ _ _ _ _ rfl (Or.inl ⟨.fin 0, by simp, by simp⟩)

example : Ordered (.fin 2, .pinf) ∧ Ordered (.ninf, .pinf) ∧ ¬ Ordered (.pinf, .pinf) := by simp [Ordered, Fl.lt]

/-- C192 (violated: "p0: set up by the class" is a default): a class whose own guess fails cannot be fitted from a given start either. -/
theorem C192_guess_needed (argnames : List String) (e : PyErr) (f : List Fl → Fl → Fl) (o : Obs3)
    (solve : List Fl → List Fl → List Fl → Except PyErr (Option (List Fl))) (q : Req) :
    run argnames (.error e) f o solve q = .error e := rfl

/-- C192: extra arguments of the model function (`args`) are refused with `ValueError`. -/
theorem C192_args (argnames : List String) (g : List Fl) (f : List Fl → Fl → Fl) (o : Obs3)
    (solve : List Fl → List Fl → List Fl → Except PyErr (Option (List Fl))) (q : Req) (ha : q.args = true) (lo hi : Fl)
    (hb : q.bounds = .scalar lo hi) : run argnames (.ok g) f o solve q = .error .valueError := by
  simp only [run, bind, Except.bind, hb, prepare, ha, if_true]
  rfl

example (f : List Fl → Fl → Fl) (o : Obs3) (solve : List Fl → List Fl → List Fl → Except PyErr (Option (List Fl))) :
    run ["m"] (.ok [.fin 1]) f o solve { args := true } = .error .valueError := C192_args _ _ _ _ _ _ rfl _ _ rfl

/-- bounds given by name -/
def lookup (d : List (String × Fl × Fl)) (k : String) : Option (Fl × Fl) := (d.find? (fun q => q.1 == k)).map (·.2)

theorem prepare_dict (d : List (String × Fl × Fl)) (n : Nat) : ∀ argnames : List String,
    (∀ l : List (Fl × Fl), argnames.map (lookup d) = l.map some → prepare argnames n (.dict d) = .ok (l.map (·.1), l.map (·.2))) ∧
    (none ∈ argnames.map (lookup d) → prepare argnames n (.dict d) = .error .keyError) := by
  have key : ∀ argnames : List String,
      (∀ l : List (Fl × Fl), argnames.map (lookup d) = l.map some → argnames.mapM (boundOf d) = .ok l) ∧
      (none ∈ argnames.map (lookup d) → argnames.mapM (boundOf d) = .error .keyError) := by
    intro argnames
    induction argnames with
    | nil =>
      constructor
      · intro l hl
        have : l = [] := by simpa using hl.symm
        subst this; rfl
      · intro h; simp at h
    | cons k ks ih =>
      constructor
      · intro l hl
        cases l with
        | nil => simp at hl
        | cons b bs =>
          simp only [List.map_cons, List.cons.injEq] at hl
          have hk := hl.1
          unfold lookup at hk
          cases hf : d.find? (fun q => q.1 == k) with
          | none => rw [hf] at hk; simp at hk
          | some q =>
            rw [hf] at hk
            simp only [Option.map_some, Option.some.injEq] at hk
            have hb : boundOf d k = .ok q.2 := by unfold boundOf; rw [hf]
            rw [List.mapM_cons, hb, (ih.1 bs hl.2), ← hk]
            rfl
      · intro h
        rw [List.mapM_cons]
        cases hf : d.find? (fun q => q.1 == k) with
        | none =>
          have hb : boundOf d k = .error .keyError := by unfold boundOf; rw [hf]
          rw [hb]; rfl
        | some q =>
          have hb : boundOf d k = .ok q.2 := by unfold boundOf; rw [hf]
          have hl : lookup d k = some q.2 := by unfold lookup; rw [hf]; rfl
          rw [List.map_cons, hl] at h
          simp only [List.mem_cons, reduceCtorEq, false_or] at h
          rw [hb, ih.2 h]
          rfl
  intro argnames
  constructor
  · intro l hl
    have := (key argnames).1 l hl
    simp only [prepare, this]
    rfl
  · intro h
    have := (key argnames).2 h
    simp only [prepare, this]
    rfl

/-- C192: bounds given by name are matched by name: only the entries of the parameters matter, not their order nor other entries. -/
theorem C192_bounds_by_name (argnames : List String) (guess : Except PyErr (List Fl)) (f : List Fl → Fl → Fl) (o : Obs3)
    (solve : List Fl → List Fl → List Fl → Except PyErr (Option (List Fl))) (q : Req) (d d' : List (String × Fl × Fl))
    (h : ∀ k ∈ argnames, lookup d k = lookup d' k) :
    run argnames guess f o solve { q with bounds := .dict d } = run argnames guess f o solve { q with bounds := .dict d' } := by
  have hm : argnames.map (lookup d) = argnames.map (lookup d') := List.map_congr_left h
  have hp : ∀ n, prepare argnames n (.dict d) = prepare argnames n (.dict d') := by
    intro n
    by_cases hn : none ∈ argnames.map (lookup d)
    · rw [(prepare_dict d n argnames).2 hn, (prepare_dict d' n argnames).2 (hm ▸ hn)]
    · obtain ⟨l, hl⟩ : ∃ l : List (Fl × Fl), argnames.map (lookup d) = l.map some := by
        refine ⟨(argnames.map (lookup d)).reduceOption, ?_⟩
        generalize argnames.map (lookup d) = m at hn
        clear hm h
        induction m with
        | nil => rfl
        | cons a m ih =>
          cases a with
          | none => simp at hn
          | some b =>
            rw [List.reduceOption_cons_of_some, List.map_cons, ← ih (fun h => hn (by simp [h]))]
      rw [(prepare_dict d n argnames).1 l hl, (prepare_dict d' n argnames).1 l (hm ▸ hl)]
  unfold run
  simp only [hp]
  rfl

/-- C192: a parameter without an entry is a KeyError, which `make_fit` raises even when asked to return exceptions. -/
theorem C192_bound_missing (argnames : List String) (g : List Fl) (f : List Fl → Fl → Fl) (o : Obs3)
    (solve : List Fl → List Fl → List Fl → Except PyErr (Option (List Fl))) (q : Req) (d : List (String × Fl × Fl)) (k : String)
    (hk : k ∈ argnames) (hd : lookup d k = none) :
    run argnames (.ok g) f o solve { q with bounds := .dict d } = .error .keyError ∧ ¬ caughtByFit .keyError := by
  refine ⟨?_, by simp [caughtByFit]⟩
  have hn : none ∈ argnames.map (lookup d) := List.mem_map.mpr ⟨k, hk, hd⟩
  unfold run
  simp only [bind, Except.bind, (prepare_dict d _ argnames).2 hn]

/-- what a problem must satisfy to reach the optimiser -/
structure Wellposed (npar : Nat) (f : List Fl → Fl → Fl) (o : Obs3) (q : Req) (p lb ub : List Fl) : Prop where
  len : p.length = npar ∧ lb.length = npar ∧ ub.length = npar
  ordered : ∀ b ∈ lb.zip ub, Ordered b
  lower : ∀ b ∈ lb.zip p, Fl.le b.1 b.2
  upper : ∀ b ∈ p.zip ub, Fl.le b.1 b.2
  finite : ∀ r ∈ residuals f o p, r.isFinite
  method : q.method = "trf" ∨ q.method = "dogbox" ∨ q.method = "lm"
  loss : q.loss = "linear" ∨ q.loss = "huber" ∨ q.loss = "soft_l1" ∨ q.loss = "cauchy" ∨ q.loss = "arctan"
  lm : q.method = "lm" → q.loss = "linear" ∧ (∀ b ∈ lb, b = .ninf) ∧ (∀ b ∈ ub, b = .pinf)

theorem checks_iff (npar : Nat) (f : List Fl → Fl → Fl) (o : Obs3) (q : Req) (p lb ub : List Fl) :
    scipyChecks npar f o q p lb ub = .ok () ↔ Wellposed npar f o q p lb ub := by
  unfold scipyChecks
  constructor
  · intro h
    split_ifs at h with h1 h2 h3 h4 h5 h6 h7 h8 h9
    push Not at h1 h2 h3 h4 h5 h7 h8
    refine ⟨⟨h8, h4.1.trans h8, h4.2.trans h8⟩, h6, h7.1, h7.2, h9, ?_, ?_, ?_⟩
    · by_cases a : q.method = "trf"
      · exact Or.inl a
      · by_cases b : q.method = "dogbox"
        · exact Or.inr (Or.inl b)
        · exact Or.inr (Or.inr (h1 a b))
    · by_cases a : q.loss = "linear"
      · exact Or.inl a
      · by_cases b : q.loss = "huber"
        · exact Or.inr (Or.inl b)
        · by_cases c : q.loss = "soft_l1"
          · exact Or.inr (Or.inr (Or.inl c))
          · by_cases d : q.loss = "cauchy"
            · exact Or.inr (Or.inr (Or.inr (Or.inl d)))
            · exact Or.inr (Or.inr (Or.inr (Or.inr (h2 a b c d))))
    · intro hm
      exact ⟨h3 hm, (h5 hm).1, (h5 hm).2⟩
  · intro w
    rw [if_neg, if_neg, if_neg, if_neg, if_neg, if_neg, if_neg, if_neg, if_neg]
    · rw [not_not]; exact w.finite
    · rw [not_not]; exact w.len.1
    · push Not; exact ⟨w.lower, w.upper⟩
    · rw [not_not]; exact w.ordered
    · rintro ⟨hm, ⟨b, hb, hne⟩ | ⟨b, hb, hne⟩⟩
      · exact hne ((w.lm hm).2.1 b hb)
      · exact hne ((w.lm hm).2.2 b hb)
    · push Not; exact ⟨w.len.2.1.trans w.len.1.symm, w.len.2.2.trans w.len.1.symm⟩
    · rintro ⟨hm, hl⟩; exact hl (w.lm hm).1
    · rintro ⟨a, b, c, d, e⟩; rcases w.loss with h | h | h | h | h <;> contradiction
    · rintro ⟨a, b, c⟩; rcases w.method with h | h | h <;> contradiction

/-- C192: whatever is requested, parameters come only from the optimiser, started within ordered bounds (one pair per parameter) at a
point with finite residuals; the bounds stored by name are the ones used. -/
theorem C192_wellposed (argnames : List String) (guess : Except PyErr (List Fl)) (f : List Fl → Fl → Fl) (o : Obs3)
    (solve : List Fl → List Fl → List Fl → Except PyErr (Option (List Fl))) (q : Req) (x p : List Fl) (b : List (String × Fl × Fl))
    (h : run argnames guess f o solve q = .ok (x, p, b)) :
    ∃ lb ub, Wellposed argnames.length f o q p lb ub ∧ solve p lb ub = .ok (some x) ∧ b = argnames.zip (lb.zip ub) ∧
      b.map Prod.fst = argnames ∧
      (q.p0 = .absent → guess = .ok p) ∧ (∀ p', q.p0 = .given p' → p' = p) ∧ q.args = false := by
  unfold run at h
  cases hg : guess with
  | error e => rw [hg] at h; cases h
  | ok g =>
    rw [hg] at h
    simp only [bind, Except.bind] at h
    split at h
    · cases h
    · rename_i v hv
      obtain ⟨lb, ub⟩ := v
      simp only [] at h
      by_cases ha : q.args = true
      · rw [if_pos ha] at h; cases h
      · rw [if_neg ha] at h
        simp only [pure, Except.pure] at h
        split at h
        · cases h
        · rename_i u hu
          obtain ⟨⟩ := u
          split at h
          · cases h
          · rename_i r hr
            cases r with
            | none => cases h
            | some x' =>
              simp only [Except.ok.injEq, Prod.mk.injEq] at h
              obtain ⟨rfl, rfl, rfl⟩ := h
              have hw := (checks_iff _ _ _ _ _ _ _).mp hu
              refine ⟨lb, ub, hw, hr, rfl, ?_, ?_, ?_, by simpa using ha⟩
              · rw [List.map_fst_zip]
                rw [List.length_zip, hw.len.2.1, hw.len.2.2]; simp
              · intro h0; rw [h0]
              · intro p' h0; rw [h0]

/-- C192 (violated: `method` is passed to the optimiser): asking for Levenberg-Marquardt alone always fails with ValueError, because the
default loss is not linear. -/
theorem C192_lm_alone (argnames : List String) (g : List Fl) (f : List Fl → Fl → Fl) (o : Obs3)
    (solve : List Fl → List Fl → List Fl → Except PyErr (Option (List Fl))) :
    run argnames (.ok g) f o solve { method := "lm" } = .error .valueError := by
  unfold run
  simp [prepare, scipyChecks, bind, Except.bind, pure, Except.pure]

/-- C192: a start of the wrong length is a TypeError, which `make_fit` raises even when asked to return exceptions. -/
theorem C192_wrong_length (argnames : List String) (g : List Fl) (f : List Fl → Fl → Fl) (o : Obs3)
    (solve : List Fl → List Fl → List Fl → Except PyErr (Option (List Fl))) (p : List ℝ) (hp : p.length ≠ argnames.length) :
    run argnames (.ok g) f o solve { p0 := .given (p.map .fin) } = .error .typeError ∧ ¬ caughtByFit .typeError := by
  refine ⟨?_, by simp [caughtByFit]⟩
  have h1 : ∀ b ∈ (List.replicate p.length Fl.ninf).zip (List.replicate p.length Fl.pinf), Fl.lt b.1 b.2 := by
    intro b hb
    have h1 := List.eq_of_mem_replicate (List.of_mem_zip hb).1
    have h2 := List.eq_of_mem_replicate (List.of_mem_zip hb).2
    rw [h1, h2]; simp [Fl.lt]
  have h2 : ∀ b ∈ (List.replicate p.length Fl.ninf).zip (p.map Fl.fin), Fl.le b.1 b.2 := by
    intro b hb
    have h1 := List.eq_of_mem_replicate (List.of_mem_zip hb).1
    obtain ⟨a, _, h2⟩ := List.mem_map.mp (List.of_mem_zip hb).2
    rw [h1, ← h2]; simp [Fl.le]
  have h3 : ∀ b ∈ (p.map Fl.fin).zip (List.replicate p.length Fl.pinf), Fl.le b.1 b.2 := by
    intro b hb
    have h1 := List.eq_of_mem_replicate (List.of_mem_zip hb).2
    obtain ⟨a, _, h2⟩ := List.mem_map.mp (List.of_mem_zip hb).1
    rw [h1, ← h2]; simp [Fl.le]
  have hc : scipyChecks argnames.length f o { p0 := .given (p.map .fin) } (p.map .fin) (List.replicate p.length Fl.ninf)
      (List.replicate p.length Fl.pinf) = .error .typeError := by
    unfold scipyChecks
    rw [if_neg (by simp), if_neg (by simp), if_neg (by simp), if_neg (by simp), if_neg (by simp), if_neg (by rw [not_not]; exact h1),
      if_neg (by push Not; exact ⟨h2, h3⟩), if_pos (by simpa using hp)]
  unfold run
  simp only [prepare, bind, Except.bind, pure, Except.pure, List.length_map, Bool.false_eq_true, if_false, hc]

/-- C192: an uncertainty of zero among the observations used makes the fit fail, whatever is requested. -/
theorem C192_zero_weight (argnames : List String) (guess : Except PyErr (List Fl)) (f : List Fl → Fl → Fl) (x y w : List Fl)
    (hx : x.length = y.length) (hw : w.length = y.length) (h0 : Fl.fin 0 ∈ w)
    (solve : List Fl → List Fl → List Fl → Except PyErr (Option (List Fl))) (q : Req) (r : List Fl × List Fl × List (String × Fl × Fl)) :
    run argnames guess f ⟨x, y, some w⟩ solve q ≠ .ok r := by
  obtain ⟨xo, p, b⟩ := r
  intro h
  obtain ⟨lb, ub, hwp, _⟩ := C192_wellposed _ _ _ _ _ _ _ _ _ h
  obtain ⟨i, hi, he⟩ := List.getElem_of_mem h0
  have hlen : i < (List.zipWith (fun x y => f p x - y) x y).length := by simp; omega
  have hmem : (.fin 1 / Fl.fin 0) * (List.zipWith (fun x y => f p x - y) x y)[i] ∈ residuals f ⟨x, y, some w⟩ p := by
    unfold residuals
    simp only []
    have : (.fin 1 / Fl.fin 0) * (List.zipWith (fun x y => f p x - y) x y)[i] =
        (List.zipWith (fun a s => (.fin 1 / s) * a) (List.zipWith (fun x y => f p x - y) x y) w)[i]'(by simp; omega) := by
      rw [List.getElem_zipWith (f := fun a s => (Fl.fin 1 / s) * a), he]
    rw [this]
    exact List.getElem_mem _
  have hfin := hwp.finite _ hmem
  have hdiv : (Fl.fin 1 / Fl.fin 0) = Fl.pinf := by
    show Fl.div _ _ = _
    simp [Fl.div]
  rw [hdiv] at hfin
  revert hfin
  generalize (List.zipWith (fun x y => f p x - y) x y)[i] = v
  intro hfin
  obtain ⟨a, ha⟩ := Fl.isFinite_iff.mp hfin
  have : ∀ v : Fl, ∀ a : ℝ, (Fl.pinf * v : Fl) ≠ .fin a := by
    intro v a hc
    change Fl.mul _ _ = _ at hc
    cases v <;> simp only [Fl.mul, Fl.infMul, reduceCtorEq] at hc
    split_ifs at hc
  exact this v a ha

/-! ### C193: what is minimised -/

/-- the loss of one residual, in closed form: quadratic near zero, linear beyond `C` -/
noncomputable def loss (C a : ℝ) : ℝ := if |a| ≤ C then a ^ 2 / 2 else C * |a| - C ^ 2 / 2

theorem huber_closed (C a : ℝ) (hC : 0 < C) : 0.5 * (C ^ 2 * huber ((a / C) ^ 2)) = loss C a := by
  unfold huber loss
  have hs : Real.sqrt ((a / C) ^ 2) = |a| / C := by rw [Real.sqrt_sq_eq_abs, abs_div, abs_of_pos hC]
  have hiff : (a / C) ^ 2 ≤ 1 ↔ |a| ≤ C := by
    rw [sq_le_one_iff_abs_le_one, abs_div, abs_of_pos hC, div_le_one hC]
  by_cases h : |a| ≤ C
  · rw [if_pos (hiff.mpr h), if_pos h]; field_simp; ring
  · rw [if_neg (fun h' => h (hiff.mp h')), if_neg h, hs]; field_simp; ring

theorem objective_eq (C : ℝ) (hC : 0 < C) (r : List ℝ) : objective C r = (r.map (loss C)).sum := by
  unfold objective
  rw [← List.sum_map_mul_left]
  congr 1
  apply List.map_congr_left
  intro a _
  exact huber_closed C a hC

theorem loss_le (C a : ℝ) : loss C a ≤ a ^ 2 / 2 ∧ (loss C a = a ^ 2 / 2 ↔ |a| ≤ C) := by
  unfold loss
  split_ifs with h
  · exact ⟨le_refl _, by simp [h]⟩
  · have h' := lt_of_not_ge h
    have hsq := sq_abs a
    have hp : 0 < (|a| - C) ^ 2 := by have : 0 < |a| - C := by linarith
                                      positivity
    have hlt : C * |a| - C ^ 2 / 2 < a ^ 2 / 2 := by nlinarith
    exact ⟨hlt.le, ⟨fun he => absurd he hlt.ne, fun hc => absurd hc h⟩⟩

/-- C193: the default objective never exceeds half the sum of squares, and equals it exactly when no (weighted) residual exceeds the scale:
only then is the fit a least-squares fit. -/
theorem C193_least_squares (C : ℝ) (hC : 0 < C) (r : List ℝ) :
    objective C r ≤ (r.map (fun a => a ^ 2 / 2)).sum ∧
    (objective C r = (r.map (fun a => a ^ 2 / 2)).sum ↔ ∀ a ∈ r, |a| ≤ C) := by
  rw [objective_eq C hC]
  induction r with
  | nil => simp
  | cons a r ih =>
    obtain ⟨h1, h2⟩ := ih
    obtain ⟨h3, h4⟩ := loss_le C a
    simp only [List.map_cons, List.sum_cons, List.forall_mem_cons]
    refine ⟨add_le_add h3 h1, ?_⟩
    rw [← h4, ← h2]
    constructor
    · intro h; constructor <;> linarith
    · rintro ⟨h5, h6⟩; rw [h5, h6]

/-- C193: no single observation pulls harder than the scale: moving one residual changes the objective by at most `C` per unit. -/
theorem C193_outlier (C : ℝ) (hC : 0 < C) (r s : List ℝ) (a b : ℝ) :
    |objective C (r ++ a :: s) - objective C (r ++ b :: s)| ≤ C * |a - b| := by
  rw [objective_eq C hC, objective_eq C hC]
  simp only [List.map_append, List.map_cons, List.sum_append, List.sum_cons]
  have e : (r.map (loss C)).sum + (loss C a + (s.map (loss C)).sum) - ((r.map (loss C)).sum + (loss C b + (s.map (loss C)).sum)) =
    loss C a - loss C b := by ring
  rw [e]
  have key : ∀ u v : ℝ, |u| ≤ |v| → loss C u ≤ loss C v ∧ loss C v - loss C u ≤ C * (|v| - |u|) := by
    intro u v huv
    have hu := abs_nonneg u
    have hv := abs_nonneg v
    have hu2 := sq_abs u
    have hv2 := sq_abs v
    unfold loss
    rw [← hu2, ← hv2]
    split_ifs with h1 h2 h2
    · constructor <;> nlinarith
    · have := lt_of_not_ge h2
      constructor <;> nlinarith
    · exact absurd (huv.trans h2) h1
    · constructor <;> nlinarith
  rcases le_total (|a|) (|b|) with h | h
  · obtain ⟨h1, h2⟩ := key a b h
    rw [abs_of_nonpos (by linarith)]
    have : |b| - |a| ≤ |a - b| := by rw [abs_sub_comm]; exact abs_sub_abs_le_abs_sub b a
    nlinarith
  · obtain ⟨h1, h2⟩ := key b a h
    rw [abs_of_nonneg (by linarith)]
    have : |a| - |b| ≤ |a - b| := abs_sub_abs_le_abs_sub a b
    nlinarith

/-- C193: with uncertainties, expressing ordinate, uncertainty and model in another unit leaves the objective of every model unchanged. -/
theorem C193_units (C s : ℝ) (hs : 0 < s) (f : ℝ → ℝ) (d : List (ℝ × ℝ × ℝ)) :
    objective C (wres (fun x => s * f x) (d.map (fun q => (q.1, s * q.2.1, s * q.2.2)))) = objective C (wres f d) := by
  unfold wres
  rw [List.map_map]
  congr 1
  apply List.map_congr_left
  intro q _
  simp only [Function.comp_apply]
  by_cases h : q.2.2 = 0
  · rw [h]; simp
  · field_simp

/-- the residuals of the constant model `c` without uncertainties -/
def cres (c : ℝ) (y : List ℝ) : List ℝ := y.map (fun a => c - a)

/-- C193 (violated: a fit does not depend on the unit of the ordinate): without uncertainties, which of two candidate values fits better is
decided by the unit, because the scale 0.1 is in the unit of the data. -/
theorem C193_unit_dependent : ∃ (y : List ℝ) (c₁ c₂ s : ℝ), 0 < s ∧ objective 0.1 (cres c₁ y) < objective 0.1 (cres c₂ y) ∧
    objective 0.1 (cres (s * c₂) (y.map (s * ·))) < objective 0.1 (cres (s * c₁) (y.map (s * ·))) := by
  refine ⟨[0, 0, 0.1], 1 / 30, 0, 30, by norm_num, ?_, ?_⟩
  · rw [objective_eq _ (by norm_num), objective_eq _ (by norm_num)]
    norm_num [cres, loss, abs_of_pos, abs_of_neg, abs_le]
  · rw [objective_eq _ (by norm_num), objective_eq _ (by norm_num)]
    norm_num [cres, loss, abs_of_pos, abs_of_neg, abs_le]

/-! ### C194: the trend function -/

/-- the parameters the trend is made of -/
def HasKeys (cols : List Col) (ykey wkey : String) (ys ws : List Fl) : Prop :=
  cols.map (fun c => c.popt ykey) = ys.map some ∧ cols.map (fun c => c.popt wkey) = ws.map some

theorem mapM_some {α β} (g : α → Option β) : ∀ (l : List α) (r : List β), l.mapM g = some r ↔ l.map g = r.map some := by
  intro l
  induction l with
  | nil => intro r; cases r <;> simp
  | cons a l ih =>
    intro r
    rw [List.mapM_cons]
    cases h : g a with
    | none => cases r <;> simp [h]
    | some b =>
      cases hm : l.mapM g with
      | none =>
        constructor
        · intro hc; simp at hc
        · intro hc
          cases r with
          | nil => simp at hc
          | cons c r =>
            simp only [List.map_cons, List.cons.injEq] at hc
            rw [(ih r).mpr hc.2] at hm; cases hm
      | some bs =>
        have hbs := (ih bs).mp hm
        cases r with
        | nil => simp [hm]
        | cons c r =>
          simp only [Option.bind_eq_bind, Option.bind_some, Option.pure_def, Option.some.injEq, List.cons.injEq, List.map_cons, h, hbs]
          constructor
          · rintro ⟨rfl, rfl⟩; exact ⟨rfl, rfl⟩
          · rintro ⟨h1, h2⟩
            exact ⟨h1, List.map_injective_iff.mpr (Option.some_injective _) h2⟩

/-- C194: the trend is fitted to one observation per remaining column: abscissa the middle of its bin (or ten to that power for a
logarithmic axis), ordinate and uncertainty the column's own parameters; the limits select among these, in order. -/
theorem C194_trend (cols : List Col) (ykey wkey : String) (logx : Bool) (kw : TrendKw) (L : Limits) (o : UsedRaw)
    (h : makeTrend cols ykey wkey logx kw L = .ok o) :
    cols ≠ [] ∧ ∃ (ys ws : List Fl) (idx : List ℕ), HasKeys cols ykey wkey ys ws ∧ idx.Pairwise (· < ·) ∧
      (∀ k, k ∈ idx ↔ ∃ c, cols[k]? = some c ∧
        Selected L (.fin (trendX logx c)) (ys.getD k .nan) (some (ws.getD k .nan))) ∧
      o.used.x = idx.map (fun k => (cols.map (fun c => Fl.fin (trendX logx c))).getD k .nan) ∧
      o.used.y = idx.map (fun k => ys.getD k .nan) ∧ o.used.w = some (idx.map (fun k => ws.getD k .nan)) ∧
      o.raw.y = ys ∧ o.raw.w = some ws := by
  unfold makeTrend at h
  by_cases h1 : cols = []
  · rw [if_pos h1] at h; cases h
  rw [if_neg h1] at h
  by_cases h2 : kw.weights = true
  · rw [if_pos h2] at h; cases h
  rw [if_neg h2] at h
  split at h
  · rename_i ys ws hy hw
    by_cases h3 : kw.logx = true
    · rw [if_pos h3] at h; cases h
    rw [if_neg h3] at h
    obtain ⟨idx, hp, hm, hx', hy', hw', _, hry, hrw, _⟩ := C40_selection _ _ _ _ _ h
    refine ⟨h1, ys, ws, idx, ⟨(mapM_some _ _ _).mp hy, (mapM_some _ _ _).mp hw⟩, hp, ?_, hx', hy', hw', hry, hrw⟩
    intro k
    rw [hm]
    constructor
    · rintro ⟨hk, hs⟩
      have hk' : k < cols.length := by simpa [NArr.of] using hk
      refine ⟨cols[k], List.getElem?_eq_getElem hk', ?_⟩
      simpa [NArr.of, List.getD, hk'] using hs
    · rintro ⟨c, hc, hs⟩
      obtain ⟨hk', he⟩ := List.getElem?_eq_some_iff.mp hc
      refine ⟨by simpa [NArr.of] using hk', ?_⟩
      simpa [NArr.of, List.getD, hk', he] using hs
  · cases h


theorem mapM_none {α β} (g : α → Option β) (l : List α) (a : α) (ha : a ∈ l) (hg : g a = none) : l.mapM g = none := by
  cases h : l.mapM g with
  | none => rfl
  | some r =>
    have := (mapM_some g l r).mp h
    have hm : none ∈ l.map g := List.mem_map.mpr ⟨a, ha, hg⟩
    rw [this] at hm
    simp at hm

/-- C194: what is refused: no remaining fits, a `weights` keyword (ValueError), a parameter the fits do not have (KeyError), and a second
`logx` (TypeError); anything else makes a trend unless the limits themselves are refused. -/
theorem C194_refused (cols : List Col) (ykey wkey : String) (logx : Bool) (kw : TrendKw) (L : Limits) :
    (cols = [] → makeTrend cols ykey wkey logx kw L = .error .valueError) ∧
    (kw.weights = true → makeTrend cols ykey wkey logx kw L = .error .valueError) ∧
    (kw.weights = false → (∃ c ∈ cols, c.popt ykey = none ∨ c.popt wkey = none) →
      makeTrend cols ykey wkey logx kw L = .error .keyError) ∧
    (∀ ys ws, cols ≠ [] → kw.weights = false → HasKeys cols ykey wkey ys ws → kw.logx = true →
      makeTrend cols ykey wkey logx kw L = .error .typeError) ∧
    (∀ ys ws, cols ≠ [] → kw.weights = false → HasKeys cols ykey wkey ys ws → kw.logx = false →
      GoodPair L.xoutside → GoodPair L.youtside → ∃ o, makeTrend cols ykey wkey logx kw L = .ok o) := by
  unfold makeTrend
  refine ⟨fun h => by rw [if_pos h], ?_, ?_, ?_, ?_⟩
  · intro h
    by_cases h1 : cols = []
    · rw [if_pos h1]
    · rw [if_neg h1, if_pos h]
  · rintro hw ⟨c, hc, h⟩
    have h1 : cols ≠ [] := List.ne_nil_of_mem hc
    rw [if_neg h1, if_neg (by simp [hw])]
    rcases h with h | h
    · rw [mapM_none _ _ c hc h]
    · rw [mapM_none (fun c => c.popt wkey) _ c hc h]
      cases List.mapM (fun c => c.popt ykey) cols <;> rfl
  · intro ys ws h1 hw hk hl
    rw [if_neg h1, if_neg (by simp [hw]), (mapM_some _ _ _).mpr hk.1, (mapM_some _ _ _).mpr hk.2]
    simp only [hl, if_true]
  · intro ys ws h1 hw hk hl g1 g2
    rw [if_neg h1, if_neg (by simp [hw]), (mapM_some _ _ _).mpr hk.1, (mapM_some _ _ _).mpr hk.2]
    simp only [hl, Bool.false_eq_true, if_false]
    have l1 := congrArg List.length hk.1
    have l2 := congrArg List.length hk.2
    simp only [List.length_map] at l1 l2
    refine (C41_construction _ _ _ _).1.mpr ⟨by simp [NArr.of, l1], ?_, by simp, g1, g2⟩
    intro w' hw'
    simp only [Option.some.injEq] at hw'
    subst hw'
    simp [NArr.of, l2]

/-- C194: every column the trend was fitted to is labelled "In Fit". -/
theorem C194_label_sound (used : Obs3) (ws : List Fl) (hw : used.w = some ws) (k : ℕ) (y w : Fl) (hy : used.y[k]? = some y)
    (hk : ws[k]? = some w) (hny : ¬ y.isNaN) (hnw : ¬ w.isNaN) : inFitLabel used y w := by
  have refl : ∀ a : Fl, ¬ a.isNaN → Fl.le a a := by intro a; cases a <;> simp [Fl.le]
  exact ⟨⟨y, List.mem_of_getElem? hy, refl y hny⟩, ⟨y, List.mem_of_getElem? hy, refl y hny⟩, ws, hw,
    ⟨w, List.mem_of_getElem? hk, refl w hnw⟩, ⟨w, List.mem_of_getElem? hk, refl w hnw⟩⟩

/-- a column with bin `[k, k+1]`, ordinate `y` and uncertainty `w` -/
noncomputable def demoCol (k y w : ℝ) : Col := ⟨k, k + 1, fun s => if s = "mu" then some (.fin y) else if s = "sigma" then some (.fin w) else none⟩

/-- C194 (violated: "In Fit" tells whether the column took part): a column cut off by an abscissa limit is labelled "In Fit" when its
parameters lie among those of the others. -/
theorem C194_label_unsound : ∃ (cols : List Col) (L : Limits) (o : UsedRaw) (c : Col) (y w : Fl), c ∈ cols ∧
    makeTrend cols "mu" "sigma" false {} L = .ok o ∧ c.popt "mu" = some y ∧ c.popt "sigma" = some w ∧
    Fl.fin (trendX false c) ∉ o.used.x ∧ y ∉ o.used.y ∧ inFitLabel o.used y w := by
  let cols := [demoCol 0 1 1, demoCol 1 3 1, demoCol 2 2 1]
  have hk : HasKeys cols "mu" "sigma" [.fin 1, .fin 3, .fin 2] [.fin 1, .fin 1, .fin 1] := by
    constructor <;> simp [cols, demoCol]
  obtain ⟨o, ho⟩ := (C194_refused cols "mu" "sigma" false {} { xmax := some (.fin 2) }).2.2.2.2 _ _ (by simp [cols]) rfl hk rfl
    (by simp [GoodPair]) (by simp [GoodPair])
  refine ⟨cols, _, o, demoCol 2 2 1, .fin 2, .fin 1, by simp [cols], ho, by simp [demoCol], by simp [demoCol], ?_⟩
  obtain ⟨_, ys, ws, idx, hk', _, hidx, hx, hy, hw, _⟩ := C194_trend _ _ _ _ _ _ _ ho
  have e1 : ys = [.fin 1, .fin 3, .fin 2] := List.map_injective_iff.mpr (Option.some_injective _) (hk'.1.symm.trans hk.1)
  have e2 : ws = [.fin 1, .fin 1, .fin 1] := List.map_injective_iff.mpr (Option.some_injective _) (hk'.2.symm.trans hk.2)
  subst e1 e2
  have i0 : 0 ∈ idx := by
    rw [hidx]
    refine ⟨demoCol 0 1 1, by simp [cols], ?_⟩
    simp [Selected, Within, Outside, selWeight, trendX, demoCol]
    norm_num
  have i1 : 1 ∈ idx := by
    rw [hidx]
    refine ⟨demoCol 1 3 1, by simp [cols], ?_⟩
    simp [Selected, Within, Outside, selWeight, trendX, demoCol]
    norm_num
  have only : ∀ k ∈ idx, k = 0 ∨ k = 1 := by
    intro k hk
    obtain ⟨c, hc, hs⟩ := (hidx k).mp hk
    match k, hc with
    | 0, _ => exact Or.inl rfl
    | 1, _ => exact Or.inr rfl
    | 2, hc =>
      exfalso
      have : c = demoCol 2 2 1 := by simpa [cols] using hc.symm
      subst this
      have := hs.1.2.2 (.fin 2) rfl
      simp [trendX, demoCol] at this
      norm_num at this
    | k + 3, hc => simp [cols] at hc
  refine ⟨?_, ?_, ?_⟩
  · rw [hx]
    intro hm
    obtain ⟨k, hk, he⟩ := List.mem_map.mp hm
    rcases only k hk with rfl | rfl <;> · simp [cols, trendX, demoCol] at he; norm_num at he
  · rw [hy]
    intro hm
    obtain ⟨k, hk, he⟩ := List.mem_map.mp hm
    rcases only k hk with rfl | rfl <;> · simp at he; try norm_num at he
  · have hy0 : Fl.fin 1 ∈ o.used.y := by rw [hy]; exact List.mem_map.mpr ⟨0, i0, by simp⟩
    have hy1 : Fl.fin 3 ∈ o.used.y := by rw [hy]; exact List.mem_map.mpr ⟨1, i1, by simp⟩
    have hw0 : Fl.fin 1 ∈ idx.map (fun k => [Fl.fin 1, .fin 1, .fin 1].getD k .nan) := List.mem_map.mpr ⟨0, i0, by simp⟩
    refine ⟨⟨_, hy0, by norm_num [Fl.le]⟩, ⟨_, hy1, by norm_num [Fl.le]⟩, _, hw, ⟨_, hw0, by norm_num [Fl.le]⟩, ⟨_, hw0, by norm_num [Fl.le]⟩⟩

/-- C194: on a linear axis with distinct bins, `only_plot_data_in_trend_fit` draws exactly the columns the trend was fitted to. -/
theorem C194_drawn (cols : List Col) (ykey wkey : String) (kw : TrendKw) (L : Limits) (o : UsedRaw)
    (h : makeTrend cols ykey wkey false kw L = .ok o) (hd : (cols.map (trendX false)).Nodup) (c : Col) (hc : c ∈ cols) :
    c ∈ keptCols o.used cols ykey wkey ↔ Fl.fin (trendX false c) ∈ o.used.x := by
  obtain ⟨_, ys, ws, idx, hk, _, hidx, hx, hy, hw, _⟩ := C194_trend _ _ _ _ _ _ _ h
  unfold keptCols
  rw [List.mem_filter]
  constructor
  · rintro ⟨_, h1⟩
    exact (of_decide_eq_true h1).1
  · intro hm
    refine ⟨hc, decide_eq_true ⟨hm, ?_⟩⟩
    rw [hx] at hm
    obtain ⟨k, hki, he⟩ := List.mem_map.mp hm
    obtain ⟨c', hc', _⟩ := (hidx k).mp hki
    obtain ⟨hkl, hck⟩ := List.getElem?_eq_some_iff.mp hc'
    have e1 : trendX false c' = trendX false c := by
      have : (cols.map (fun c => Fl.fin (trendX false c))).getD k .nan = .fin (trendX false c') := by
        simp [List.getD, hkl, hck]
      rw [this] at he
      exact Fl.fin_inj.mp he
    have e2 : c' = c := List.inj_on_of_nodup_map hd (List.mem_of_getElem? hc') hc e1
    subst e2
    have g1 : c'.popt ykey = some (ys.getD k .nan) := by
      have := congrArg (fun l => l[k]?) hk.1
      have hl : k < ys.length := by have := congrArg List.length hk.1; simp at this; omega
      simpa [List.getElem?_map, hc', List.getD, hl] using this
    have g2 : c'.popt wkey = some (ws.getD k .nan) := by
      have := congrArg (fun l => l[k]?) hk.2
      have hl : k < ws.length := by have := congrArg List.length hk.2; simp at this; omega
      simpa [List.getElem?_map, hc', List.getD, hl] using this
    refine ⟨⟨_, g1, ?_⟩, _, _, g2, hw, ?_⟩
    · rw [hy]; exact List.mem_map.mpr ⟨k, hki, rfl⟩
    · exact List.mem_map.mpr ⟨k, hki, rfl⟩

/-- C194 (violated: likewise on a logarithmic axis): for a logarithmic axis the columns are compared in different units, so none is drawn
(say for decades of speed, where every mid-point lies in [2, 3]), however many took part in the fit. -/
theorem C194_drawn_log (cols : List Col) (ykey wkey : String) (kw : TrendKw) (L : Limits) (o : UsedRaw)
    (h : makeTrend cols ykey wkey true kw L = .ok o) (a b : ℝ) (hab : b < (10 : ℝ) ^ a)
    (hm : ∀ c ∈ cols, a ≤ trendX false c ∧ trendX false c ≤ b) : keptCols o.used cols ykey wkey = [] := by
  obtain ⟨_, ys, ws, idx, hk, _, hidx, hx, hy, hw, _⟩ := C194_trend _ _ _ _ _ _ _ h
  unfold keptCols
  rw [List.filter_eq_nil_iff]
  intro c hc hdec
  have hmem := (of_decide_eq_true hdec).1
  rw [hx] at hmem
  obtain ⟨k, hki, he⟩ := List.mem_map.mp hmem
  obtain ⟨c', hc', _⟩ := (hidx k).mp hki
  obtain ⟨hkl, hck⟩ := List.getElem?_eq_some_iff.mp hc'
  have e : (cols.map (fun c => Fl.fin (trendX true c))).getD k .nan = .fin (trendX true c') := by
    simp [List.getD, hkl, hck]
  rw [e] at he
  have he' := Fl.fin_inj.mp he
  have h1 := (hm c' (List.mem_of_getElem? hc')).1
  have h2 := (hm c hc).2
  have h3 : trendX true c' = (10 : ℝ) ^ trendX false c' := by simp [trendX]
  have h4 : (10 : ℝ) ^ a ≤ (10 : ℝ) ^ trendX false c' := Real.rpow_le_rpow_of_exponent_le (by norm_num) h1
  linarith

example : ∀ c ∈ [demoCol 2 1 1], (2 : ℝ) ≤ trendX false c ∧ trendX false c ≤ 3 := by
  simp only [List.mem_singleton, forall_eq, trendX, demoCol]; norm_num

example : (3 : ℝ) < (10 : ℝ) ^ (2 : ℝ) := by norm_num

example : ∃ o, makeTrend [demoCol 2 1 1] "mu" "sigma" true {} {} = .ok o :=
  (C194_refused [demoCol 2 1 1] "mu" "sigma" true {} {}).2.2.2.2 [.fin 1] [.fin 1] (by simp) rfl
    (by constructor <;> simp [demoCol]) rfl (by simp [GoodPair]) (by simp [GoodPair])

/-- the problem of a straight line through two points reaches the optimiser -/
example (solve : List Fl → List Fl → List Fl → Except PyErr (Option (List Fl))) (hs : ∀ p l u, solve p l u = .ok (some p)) :
    ∃ r, run ["m", "b"] (.ok [.fin 1, .fin 0]) (fun p x => p.getD 0 .nan * x + p.getD 1 .nan) ⟨[.fin 1, .fin 2], [.fin 1, .fin 2], none⟩ solve {} =
      .ok r := by
  have hc : scipyChecks 2 (fun p x => p.getD 0 .nan * x + p.getD 1 .nan) ⟨[.fin 1, .fin 2], [.fin 1, .fin 2], none⟩ {} [.fin 1, .fin 0]
      [.ninf, .ninf] [.pinf, .pinf] = .ok () := by
    rw [checks_iff]
    constructor <;> simp [Ordered, Fl.lt, Fl.le, residuals]
  refine ⟨([.fin 1, .fin 0], [.fin 1, .fin 0], ["m", "b"].zip ([Fl.ninf, .ninf].zip [Fl.pinf, .pinf])), ?_⟩
  unfold run
  simp only [prepare, bind, Except.bind, List.length_cons, List.length_nil, List.replicate, Bool.false_eq_true, if_false, pure, Except.pure, hc, hs]



end FitRun
end SW
