import Verif.FFPlot
import Verif.Props.PlotState
import Mathlib.Tactic.Ring
import Mathlib.Tactic.Linarith
import Mathlib.Tactic.FieldSimp

/-!
# C166-C169: the plotter of a fit
-/

namespace SW
namespace FFP

open Plt (Txt PPath parsePath parse_plain)

/-! ### C166: the save path -/

/-- a text that is a single path component -/
def Comp (s : Txt) : Prop := s ≠ [] ∧ s ≠ ".".toList ∧ '/' ∉ s

/-- the components a label stands for, if it is a single component of text or a relative label path -/
def LabComps : Lab → List Txt → Prop
  | .none, c => c = [['N', 'o', 'n', 'e']]
  | .str s, c => Comp s ∧ c = [s]
  | .obj p, c => p.abs = false ∧ c = p.parts

/-- the components a z label stands for: none if there is no z label -/
def ZComps : Lab → List Txt → Prop
  | .none, c => c = []
  | l, c => LabComps l c

theorem labPath_comps (l : Lab) (c : List Txt) (h : LabComps l c) : labPath l = ⟨false, c⟩ := by
  cases l with
  | none => simp only [LabComps] at h; subst h; rfl
  | str s => obtain ⟨⟨h0, h1, h2⟩, rfl⟩ := h; exact parse_plain s h0 h1 h2
  | obj p => obtain ⟨h, rfl⟩ := h; cases p; simp_all [labPath]

theorem withZ_comps (q : PPath) (l : Lab) (c : List Txt) (hq : q.abs = false) (h : ZComps l c) :
    withZ q l = ⟨false, q.parts ++ c⟩ := by
  cases l with
  | none => simp only [ZComps] at h; subst h; cases q; simp_all [withZ]
  | str s => have h : LabComps (.str s) c := h; simp [withZ, labPath_comps _ _ h, PPath.div, hq]
  | obj p => have h : LabComps (.obj p) c := h; simp [withZ, labPath_comps _ _ h, PPath.div, hq]

/-- the last component -/
def scales (logx : Bool) : Txt := (if logx then "logX" else "linX").toList ++ "_logY".toList

theorem parse_scales (a b : Bool) : parsePath (xScale a ++ '_' :: yScale b) = ⟨false, [scales a]⟩ := by
  cases a <;> cases b <;> decide

/-- The path is FFPlot / name / x label / y label / z label (if there is one) / scales.  The scale of the y axis is always "logY". -/
theorem C166_path (s : St) (hn : Comp s.name) {cx cy cz : List Txt} (hx : LabComps s.x cx) (hy : LabComps s.y cy) (hz : ZComps s.z cz) :
    path s = ⟨false, ["FFPlot".toList, s.name] ++ cx ++ cy ++ cz ++ [scales s.logx]⟩ := by
  obtain ⟨h0, h1, h2⟩ := hn
  have e0 : parsePath ['F', 'F', 'P', 'l', 'o', 't'] = ⟨false, ["FFPlot".toList]⟩ := by decide
  unfold path
  simp only [e0, parse_plain s.name h0 h1 h2, labPath_comps _ _ hx, labPath_comps _ _ hy, PPath.div, parse_scales]
  rw [withZ_comps _ _ _ (by simp) hz]
  simp

/-- Violated: a plot with a logarithmic y axis has the same path as one with a linear y axis. -/
theorem C166_y_scale (s : St) (b : Bool) : path { s with logy := b } = path s := by
  have : ∀ c : Bool, yScale c = ['l', 'o', 'g', 'Y'] := by intro c; cases c <;> rfl
  simp only [path, this]

/-- Otherwise plots with text labels that differ have different paths. -/
theorem C166_distinct (s s' : St) (hn : Comp s.name) (hn' : Comp s'.name) {a b a' b' : Txt} (ha : Comp a) (hb : Comp b) (ha' : Comp a')
    (hb' : Comp b') (hx : s.x = .str a) (hy : s.y = .str b) (hx' : s'.x = .str a') (hy' : s'.y = .str b')
    (hz : s.z = .none ∨ ∃ c, Comp c ∧ s.z = .str c) (hz' : s'.z = .none ∨ ∃ c, Comp c ∧ s'.z = .str c) :
    path s = path s' ↔ s.name = s'.name ∧ a = a' ∧ b = b' ∧ s.z = s'.z ∧ s.logx = s'.logx := by
  have sc : ∀ u v : Bool, scales u = scales v ↔ u = v := by intro u v; cases u <;> cases v <;> decide
  have p := fun cz h => C166_path s hn (cx := [a]) (cy := [b]) (cz := cz) (by rw [hx]; exact ⟨ha, rfl⟩) (by rw [hy]; exact ⟨hb, rfl⟩) h
  have p' := fun cz h => C166_path s' hn' (cx := [a']) (cy := [b']) (cz := cz) (by rw [hx']; exact ⟨ha', rfl⟩)
    (by rw [hy']; exact ⟨hb', rfl⟩) h
  obtain ⟨N, hN⟩ : ∃ N, N = "FFPlot".toList := ⟨_, rfl⟩
  rw [← hN] at p p'
  rcases hz with hz | ⟨c, hc, hz⟩ <;> rcases hz' with hz' | ⟨c', hc', hz'⟩
  · rw [p [] (by rw [hz]; rfl), p' [] (by rw [hz']; rfl), hz, hz']
    simp [sc, and_assoc]
  · rw [p [] (by rw [hz]; rfl), p' [c'] (by rw [hz']; exact ⟨hc', rfl⟩), hz, hz']
    simp
  · rw [p [c] (by rw [hz]; exact ⟨hc, rfl⟩), p' [] (by rw [hz']; rfl), hz, hz']
    simp
  · rw [p [c] (by rw [hz]; exact ⟨hc, rfl⟩), p' [c'] (by rw [hz']; exact ⟨hc', rfl⟩), hz, hz']
    simp [sc, and_assoc]

/-- what an accepted call sets -/
def setsX : Op → Option Lab
  | .labels x _ _ false => x
  | _ => none
def setsY : Op → Option Lab
  | .labels _ y _ false => y
  | _ => none
def setsZ : Op → Option Lab
  | .labels _ _ z false => z
  | _ => none
def setsLogX : Op → Option Bool
  | .log x _ false => x
  | _ => none
def setsLogY : Op → Option Bool
  | .log _ y false => y
  | _ => none
def setsName : Op → Option Txt
  | .rename n => some n
  | _ => none

/-- the value last set, or else the initial one -/
def last {α} (f : Op → Option α) (d : α) (ops : List Op) : α := (ops.filterMap f).getLast?.getD d

theorem last_cons {α} (f : Op → Option α) (d : α) (o : Op) (ops : List Op) :
    last f d (o :: ops) = last f ((f o).getD d) ops := by
  unfold last
  rw [List.filterMap_cons]
  cases f o with
  | none => rfl
  | some v => simp [List.getLast?_cons]

theorem run_eq (ops : List Op) : ∀ s : St, run s ops = ⟨last setsName s.name ops, last setsX s.x ops, last setsY s.y ops,
    last setsZ s.z ops, last setsLogX s.logx ops, last setsLogY s.logy ops⟩ := by
  induction ops with
  | nil => intro s; rfl
  | cons o os ih =>
    intro s
    rw [run, ih]
    simp only [last_cons]
    rcases o with ⟨x, y, z, e⟩ | ⟨x, y, e⟩ | ⟨n⟩
    · cases e <;> simp [step, setsX, setsY, setsZ, setsLogX, setsLogY, setsName]
    · cases e <;> simp [step, setsX, setsY, setsZ, setsLogX, setsLogY, setsName]
    · simp [step, setsX, setsY, setsZ, setsLogX, setsLogY, setsName]

/-- After every history of setter calls the labels, scales and name are those of the last accepted call that set them (initially "x",
"y", no z, linear axes), and the path is the path of exactly these. -/
theorem C166_history (n : Txt) (ops : List Op) :
    run (init n) ops = ⟨last setsName n ops, last setsX (.str "x".toList) ops, last setsY (.str "y".toList) ops,
      last setsZ .none ops, last setsLogX false ops, last setsLogY false ops⟩ := by
  rw [run_eq]; rfl

/-- An unknown keyword is refused, with KeyError for labels and TypeError for scales, and nothing changes; every other call succeeds. -/
theorem C166_refused (s : St) (o : Op) :
    ((step s o).2 = some .keyError ↔ ∃ x y z, o = .labels x y z true) ∧
    ((step s o).2 = some .typeError ↔ ∃ x y, o = .log x y true) ∧
    ((step s o).2 = none ∨ (step s o).2 = some .keyError ∨ (step s o).2 = some .typeError) ∧
    ((step s o).2 ≠ none → (step s o).1 = s) := by
  rcases o with ⟨x, y, z, e⟩ | ⟨x, y, e⟩ | ⟨n⟩
  · cases e <;> simp [step]
  · cases e <;> simp [step]
  · simp [step]

example : path (run (init "Gaussian".toList) [.labels (some (.str "Vp".toList)) none none false, .log (some true) none false])
    = ⟨false, ["FFPlot".toList, "Gaussian".toList, "Vp".toList, "y".toList, "logX_logY".toList]⟩ := by decide +kernel

/-! ### C167: marker spacing -/

theorem mark_eq (n : Nat) (hn : 10 ≤ n) : ∃ k : Nat, markevery n = some (10 ^ k) ∧ 10 ^ (k + 1) ≤ n ∧ n < 10 ^ (k + 2) := by
  obtain ⟨m, hm⟩ : ∃ m, m = Nat.log 10 n := ⟨_, rfl⟩
  have h1 : 10 ^ m ≤ n := by rw [hm]; exact Nat.pow_log_le_self 10 (by omega)
  have h2 : n < 10 ^ (m + 1) := by rw [hm]; exact Nat.lt_pow_succ_log_self (by norm_num) n
  have hm1 : 1 ≤ m := by
    by_contra hc
    have : m = 0 := by omega
    rw [this] at h2; norm_num at h2; omega
  obtain ⟨k, rfl⟩ : ∃ k, m = k + 1 := ⟨m - 1, by omega⟩
  have hpos : (0 : ℝ) < n := by exact_mod_cast (by omega : 0 < n)
  have hf : ⌊Real.logb 10 n - 1⌋ = (k : ℤ) := by
    rw [Int.floor_eq_iff]
    constructor
    · have : ((k : ℝ) + 1) ≤ Real.logb 10 n := by
        rw [Real.le_logb_iff_rpow_le (by norm_num) hpos]
        have : ((10 : ℝ)) ^ ((k : ℝ) + 1) = ((10 ^ (k + 1) : ℕ) : ℝ) := by
          push_cast
          rw [← Real.rpow_natCast]; push_cast; rfl
        rw [this]; exact_mod_cast h1
      push_cast; linarith
    · have : Real.logb 10 n < (k : ℝ) + 2 := by
        rw [Real.logb_lt_iff_lt_rpow (by norm_num) hpos]
        have : ((10 : ℝ)) ^ ((k : ℝ) + 2) = ((10 ^ (k + 1 + 1) : ℕ) : ℝ) := by
          push_cast
          rw [← Real.rpow_natCast]; push_cast; congr 1; ring
        rw [this]; exact_mod_cast h2
      push_cast; linarith
  refine ⟨k, ?_, h1, h2⟩
  unfold markevery
  have hn0 : ¬ n = 0 := by omega
  simp only [if_neg hn0, hf]
  have : ⌊(10 : ℝ) ^ (k : ℤ)⌋₊ = 10 ^ k := by
    rw [zpow_natCast]
    have : ((10 : ℝ)) ^ k = ((10 ^ k : ℕ) : ℝ) := by push_cast; rfl
    rw [this, Nat.floor_natCast]
  simp only [this]
  rw [if_neg (by positivity)]

/-- Fewer than ten points: every point is marked (no spacing is passed on). -/
theorem C167_few (n : Nat) (hn : n < 10) : markevery n = none := by
  unfold markevery
  by_cases h0 : n = 0
  · simp [h0]
  · rw [if_neg h0]
    have hpos : (0 : ℝ) < n := by exact_mod_cast (by omega : 0 < n)
    have hlt : Real.logb 10 n < 1 := by
      rw [Real.logb_lt_iff_lt_rpow (by norm_num) hpos]
      rw [Real.rpow_one]; exact_mod_cast hn
    have hf : ⌊Real.logb 10 n - 1⌋ ≤ -1 := by
      have : ⌊Real.logb 10 n - 1⌋ < 0 := by rw [Int.floor_lt]; push_cast; linarith
      omega
    have : ⌊(10 : ℝ) ^ ⌊Real.logb 10 n - 1⌋⌋₊ = 0 := by
      rw [Nat.floor_eq_zero]
      calc (10 : ℝ) ^ ⌊Real.logb 10 n - 1⌋ ≤ 10 ^ (-1 : ℤ) := zpow_le_zpow_right₀ (by norm_num) hf
        _ < 1 := by norm_num
    simp only [this, if_true]

/-- the number of points marked when every `e`-th of `n` is, starting with the first -/
def marked (n : Nat) (e : Option Nat) : Nat := ((List.range n).filter (fun i => decide (i % e.getD 1 = 0))).length

theorem count_mult (e : Nat) (he : 0 < e) : ∀ n, ((List.range n).filter (fun i => decide (i % e = 0))).length = (n + e - 1) / e := by
  intro n
  induction n with
  | zero => simp [Nat.div_eq_of_lt (by omega : e - 1 < e)]
  | succ n ih =>
    rw [List.range_succ, List.filter_append, List.length_append, ih]
    have hd : n + 1 + e - 1 = n + e := by omega
    have hs : (n + e) / e = n / e + 1 := Nat.add_div_right n he
    rw [hd, hs]
    by_cases h : n % e = 0
    · have hne : n = e * (n / e) := by have := Nat.div_add_mod n e; omega
      have : (n + e - 1) / e = n / e := by
        have hne' : n / e * e = n := by rw [Nat.mul_comm]; exact hne.symm
        rw [Nat.div_eq_iff he, hne']
        omega
      simp [h, this]
    · have : (n + e - 1) / e = n / e + 1 := by
        have hlt := Nat.mod_lt n he
        have hdm := Nat.div_add_mod n e
        rw [Nat.div_eq_iff he]
        rw [Nat.add_mul, Nat.mul_comm (n / e)]
        omega
      simp [h, this]

/-- From ten points on the spacing is the power of ten that leaves between ten and one hundred marks; it only grows with the number of
points. -/
theorem C167_spacing (n : Nat) (hn : 10 ≤ n) :
    ∃ k : Nat, markevery n = some (10 ^ k) ∧ 10 ^ (k + 1) ≤ n ∧ n < 10 ^ (k + 2) ∧
      10 ≤ marked n (markevery n) ∧ marked n (markevery n) ≤ 100 := by
  obtain ⟨k, h, h1, h2⟩ := mark_eq n hn
  refine ⟨k, h, h1, h2, ?_⟩
  have hp : 0 < 10 ^ k := by positivity
  rw [h]
  unfold marked
  simp only [Option.getD_some]
  rw [count_mult _ hp]
  generalize hP : 10 ^ k = P at *
  rw [pow_succ, hP] at h1
  rw [show k + 2 = (k + 1) + 1 by omega, pow_succ, pow_succ, hP] at h2
  constructor
  · rw [Nat.le_div_iff_mul_le hp]; omega
  · have : (n + P - 1) / P < 101 := by rw [Nat.div_lt_iff_lt_mul hp]; omega
    omega

theorem C167_monotone (n m : Nat) (h : n ≤ m) : (markevery n).getD 1 ≤ (markevery m).getD 1 := by
  by_cases hn : n < 10
  · rw [C167_few n hn]
    by_cases hm : m < 10
    · rw [C167_few m hm]
    · obtain ⟨k, e, -⟩ := mark_eq m (by omega)
      rw [e]; simp only [Option.getD]; exact Nat.one_le_pow _ _ (by norm_num)
  · obtain ⟨k, e, a, b⟩ := mark_eq n (by omega)
    obtain ⟨j, e', a', b'⟩ := mark_eq m (by omega)
    rw [e, e']
    simp only [Option.getD]
    apply Nat.pow_le_pow_right (by norm_num)
    have : 10 ^ (k + 1) < 10 ^ (j + 2) := lt_of_le_of_lt (le_trans a h) b'
    have := (Nat.pow_lt_pow_iff_right (by norm_num : 1 < 10)).mp this
    omega

example : markevery 2500 = some 100 := by
  obtain ⟨k, h, h1, h2⟩ := mark_eq 2500 (by norm_num)
  have : k = 2 := by
    have a : 10 ^ (k + 1) < 10 ^ 4 := by omega
    have b : 10 ^ 3 < 10 ^ (k + 2) := by omega
    have := (Nat.pow_lt_pow_iff_right (by norm_num : 1 < 10)).mp a
    have := (Nat.pow_lt_pow_iff_right (by norm_num : 1 < 10)).mp b
    omega
  rw [h, this]; norm_num

/-! ### C168: residual curves -/

/-- one real curve: fitted minus observed, in percent of the fitted value if asked for; `s`: the uncertainties the differences are divided by -/
noncomputable def resid (pct : Bool) (f y s : ℝ) : ℝ := if pct then 100 * ((f - y) / s / f) else (f - y) / s

/-- "simple" residuals are fitted minus observed; "robust" ones are those of the optimiser: they are divided by the uncertainties of the
observations.  The robust residuals equal the simple ones for a fit without weights, or where the uncertainty is one or the curve meets the
point. -/
theorem C168_residuals (d : List (ℝ × ℝ × ℝ)) (pct : Bool) (hf : pct = true → ∀ p ∈ d, p.1 ≠ 0) (hs : ∀ p ∈ d, p.2.2 ≠ 0) :
    residuals (d.map (fun p => .fin p.2.1)) (d.map (fun p => .fin p.1)) none pct false
      = .ok (d.map (fun p => .fin (resid pct p.1 p.2.1 1))) ∧
    residuals (d.map (fun p => .fin p.2.1)) (d.map (fun p => .fin p.1)) (some (d.map (fun p => .fin ((p.1 - p.2.1) / p.2.2)))) pct true
      = .ok (d.map (fun p => .fin (resid pct p.1 p.2.1 p.2.2))) ∧
    residuals (d.map (fun p => .fin p.2.1)) (d.map (fun p => .fin p.1)) none pct true = .error .attributeError := by
  have zm : ∀ (F G : ℝ × ℝ × ℝ → Fl) (H : Fl → Fl → Fl), List.zipWith H (d.map F) (d.map G) = d.map (fun p => H (F p) (G p)) := by
    intro F G H; rw [List.zipWith_map, List.zipWith_self]
  refine ⟨?_, ?_, by simp [residuals]⟩
  · cases pct
    · simp only [residuals, plotResiduals, zm, resid]; simp
    · simp only [residuals, plotResiduals, zm, resid, List.map_map]
      simp only [Bool.false_eq_true, if_false, if_true]
      congr 1
      apply List.map_congr_left
      intro p hp
      have := hf rfl p hp
      simp [Fl.fin_div _ _ this]
  · cases pct
    · simp [residuals, resid]
    · simp only [residuals, zm, resid, List.map_map, if_true]
      congr 1
      apply List.map_congr_left
      intro p hp
      have := hf rfl p hp
      simp [Fl.fin_div _ _ this]

theorem C168_agree (f y s : ℝ) (hs : s ≠ 0) (hf : f ≠ 0) (pct : Bool) : resid pct f y s = resid pct f y 1 ↔ s = 1 ∨ f = y := by
  have key : (f - y) / s = f - y ↔ s = 1 ∨ f = y := by
    rw [div_eq_iff hs]
    constructor
    · intro h
      by_cases hfy : f = y
      · exact Or.inr hfy
      · left
        have h1 : f - y ≠ 0 := sub_ne_zero.mpr hfy
        have : (f - y) * (s - 1) = 0 := by linarith
        rcases mul_eq_zero.mp this with h | h
        · exact absurd h h1
        · linarith
    · rintro (h | h)
      · rw [h]; ring
      · rw [h]; ring
  cases pct
  · simpa [resid] using key
  · simp only [resid, if_true, div_one]
    rw [← key]
    constructor
    · intro h
      have h1 : (f - y) / s / f = (f - y) / f := by linarith
      field_simp at h1 ⊢
      exact h1
    · intro h; rw [h]

/-- `w` spelt in any mixture of cases -/
def Spelt (kind : Txt) (w : String) : Prop := kind.map Char.toLower = w.toList

theorem kinds_ne : simpleW ≠ robustW ∧ simpleW ≠ bothW ∧ robustW ≠ bothW := by decide

theorem kind_simple {y fit fn pct label st} {kind : Txt} (h : Spelt kind "simple") :
    plotResid y fit fn pct kind label st = drawSingle y fit fn pct false (strip ['$'] label) st := by
  have h : kind.map Char.toLower = simpleW := h
  unfold plotResid
  simp only [h, if_true]

theorem kind_robust {y fit fn pct label st} {kind : Txt} (h : Spelt kind "robust") :
    plotResid y fit fn pct kind label st = drawSingle y fit fn pct true (strip ['$'] label) st := by
  have h : kind.map Char.toLower = robustW := h
  unfold plotResid
  simp only [h, if_true, if_neg kinds_ne.1.symm]

theorem kind_both {y fit fn pct label st} {kind : Txt} (h : Spelt kind "both") :
    plotResid y fit fn pct kind label st = drawBoth y fit fn pct (strip ['$'] label) st := by
  have h : kind.map Char.toLower = bothW := h
  unfold plotResid
  simp only [h, if_true, if_neg kinds_ne.2.1.symm, if_neg kinds_ne.2.2.symm]

/-- The kind, in any mixture of cases, says which curves are drawn: "simple" and "robust" one, in the style asked for; "both" the two
together, with the robust one left out if there is no fit result. -/
theorem C168_kinds (y fit : List Fl) (fn : Option (List Fl)) (pct : Bool) (label : Txt) (st : Style) (kind : Txt) :
    (Spelt kind "simple" → ∃ c, plotResid y fit fn pct kind label st = .ok [c] ∧ .ok c.ys = residuals y fit fn pct false ∧
      c.color = st.color.getD "forestgreen".toList ∧ c.marker = st.marker.getD "P".toList ∧ c.linestyle = st.linestyle.getD "-".toList) ∧
    (Spelt kind "robust" → fn = none → plotResid y fit fn pct kind label st = .error .attributeError) ∧
    (Spelt kind "robust" → fn ≠ none → ∃ c, plotResid y fit fn pct kind label st = .ok [c] ∧ .ok c.ys = residuals y fit fn pct true ∧
      c.color = st.color.getD "forestgreen".toList ∧ c.marker = st.marker.getD "P".toList ∧ c.linestyle = st.linestyle.getD "-".toList) ∧
    (Spelt kind "both" → st = {} → fn = none → ∃ c, plotResid y fit fn pct kind label st = .ok [c] ∧
      .ok c.ys = residuals y fit fn pct false) ∧
    (Spelt kind "both" → st = {} → fn ≠ none → ∃ c d, plotResid y fit fn pct kind label st = .ok [c, d] ∧
      .ok c.ys = residuals y fit fn pct false ∧ .ok d.ys = residuals y fit fn pct true ∧ c.color ≠ d.color ∧ c.marker ≠ d.marker) := by
  refine ⟨fun h => ?_, fun h hn => ?_, fun h hn => ?_, fun h hs hn => ?_, fun h hs hn => ?_⟩
  · rw [kind_simple h]
    exact ⟨_, rfl, rfl, rfl, rfl, rfl⟩
  · rw [kind_robust h, hn]; simp [drawSingle, residuals]
  · rw [kind_robust h]
    obtain ⟨r, rfl⟩ := Option.ne_none_iff_exists'.mp hn
    exact ⟨_, rfl, rfl, rfl, rfl, rfl⟩
  · rw [kind_both h, hs, hn]
    exact ⟨_, rfl, rfl⟩
  · rw [kind_both h, hs]
    obtain ⟨r, rfl⟩ := Option.ne_none_iff_exists'.mp hn
    exact ⟨_, _, rfl, rfl, rfl, (by decide : green ≠ orange), (by decide : (['P'] : Txt) ≠ ['X'])⟩

/-- Violated: a kind that is not one of the three is not refused; nothing is drawn. -/
theorem C168_unknown (y fit : List Fl) (fn : Option (List Fl)) (pct : Bool) (label : Txt) (st : Style) (kind : Txt)
    (h1 : ¬ Spelt kind "simple") (h2 : ¬ Spelt kind "robust") (h3 : ¬ Spelt kind "both") :
    plotResid y fit fn pct kind label st = .ok [] := by
  have h1 : ¬ kind.map Char.toLower = simpleW := h1
  have h2 : ¬ kind.map Char.toLower = robustW := h2
  have h3 : ¬ kind.map Char.toLower = bothW := h3
  unfold plotResid
  simp only [if_neg h1, if_neg h2, if_neg h3]

/-- Violated: with the default kind "both" a colour, marker or line style, which the documentation says is passed on, is always a TypeError. -/
theorem C168_style (y fit : List Fl) (fn : Option (List Fl)) (pct : Bool) (label : Txt) (st : Style) (kind : Txt) (h : Spelt kind "both") :
    plotResid y fit fn pct kind label st = .error .typeError ↔ st.color ≠ none ∨ st.marker ≠ none ∨ st.linestyle ≠ none := by
  rw [kind_both h]
  have hst : st ≠ {} ↔ st.color ≠ none ∨ st.marker ≠ none ∨ st.linestyle ≠ none := by
    obtain ⟨a, b, c⟩ := st
    simp only [ne_eq, Style.mk.injEq, not_and_or]
  rw [← hst]
  by_cases hs : st = {}
  · subst hs
    unfold drawBoth
    cases fn <;> simp [residuals]
  · unfold drawBoth
    simp only [ne_eq, hs, not_false_eq_true, if_true]

/-- the label shown for text `s`: upright mathematics -/
def Shown (s : Txt) : Txt := "$\\mathrm{".toList ++ s ++ "}$".toList

theorem mathrm_eq (s : Txt) : mathrm s = Shown s := rfl

theorem lstrip_id (chars s : Txt) (h : ∀ c, s.head? = some c → c ∉ chars) : lstrip chars s = s := by
  cases s with
  | nil => rfl
  | cons a t => simp [lstrip, List.dropWhile_cons, h a rfl]

theorem lstrip_rev (chars s : Txt) (h : ∀ c, s.getLast? = some c → c ∉ chars) : lstrip chars s.reverse = s.reverse :=
  lstrip_id chars _ (by intro c hc; rw [List.head?_reverse] at hc; exact h c hc)

/-- With "both", a label not wrapped in dollars is followed by the kind of each curve. -/
theorem C168_label_both (y fit : List Fl) (r : List Fl) (pct : Bool) (label : Txt) (kind : Txt) (h : Spelt kind "both")
    (h0 : label ≠ []) (h1 : label.head? ≠ some '$') (h2 : label.getLast? ≠ some '$') :
    ∃ c d, plotResid y fit (some r) pct kind label {} = .ok [c, d] ∧ c.label = Shown (label ++ " \\; Simple".toList) ∧
      d.label = Shown (label ++ " \\; Robust".toList) := by
  have hl : strip ['$'] label = label := by
    unfold strip
    rw [lstrip_id _ label (by intro c hc; simp only [List.mem_singleton]; rintro rfl; exact h1 hc),
      lstrip_rev _ label (by intro c hc; simp only [List.mem_singleton]; rintro rfl; exact h2 hc), List.reverse_reverse]
  rw [kind_both h, hl]
  refine ⟨_, _, rfl, ?_, ?_⟩
  · simp only [bothLabel, if_neg h0, mathrm_eq, List.append_assoc]; rfl
  · simp only [bothLabel, if_neg h0, mathrm_eq, List.append_assoc]; rfl

/-- Violated: for the single kinds the blanks, backslashes and semicolons that begin the label are stripped, so a label that begins with a
LaTeX command loses its backslash. -/
theorem C168_label_single (y fit : List Fl) (pct : Bool) (pre rest : Txt) (kind : Txt) (h : Spelt kind "simple")
    (hp : ∀ c ∈ pre, c ∈ " \\;".toList) (hr : rest ≠ []) (h1 : ∀ c, rest.head? = some c → c ∉ " \\;$".toList)
    (h2 : rest.getLast? ≠ some '$') :
    ∃ c, plotResid y fit none pct kind (pre ++ rest) {} = .ok [c] ∧ c.label = Shown (rest ++ " \\; Simple".toList) := by
  have hd : ∀ c ∈ pre, c ≠ '$' := by
    intro c hc e
    have := hp c hc
    rw [e] at this
    revert this; decide
  have hne : pre ++ rest ≠ [] := by simp [hr]
  have hl : strip ['$'] (pre ++ rest) = pre ++ rest := by
    unfold strip
    rw [lstrip_id ['$'] (pre ++ rest), lstrip_rev, List.reverse_reverse]
    · intro c hc
      rw [List.getLast?_append_of_ne_nil _ hr] at hc
      simp only [List.mem_singleton]; rintro rfl; exact h2 hc
    · intro c hc
      simp only [List.mem_singleton]
      cases pre with
      | nil =>
        rintro rfl
        exact h1 '$' hc (by decide)
      | cons a t =>
        have : a = c := by simpa using hc
        rw [← this]; exact hd a (by simp)
  have hs : lstrip sep ((pre ++ rest) ++ sep ++ simpleT) = rest ++ sep ++ simpleT := by
    unfold lstrip
    rw [List.append_assoc, List.append_assoc, List.dropWhile_append_of_pos]
    · rw [← List.append_assoc]
      apply lstrip_id
      intro c hc
      cases rest with
      | nil => exact absurd rfl hr
      | cons a t =>
        have hac : a = c := by simpa using hc
        have := h1 a rfl
        rw [hac] at this
        intro hm
        apply this
        have e1 : " \\;$".toList = [' ', '\\', ';', '$'] := by decide
        rw [e1]
        simp only [sep, List.mem_cons, List.not_mem_nil, or_false] at hm ⊢
        tauto
    · intro c hc
      have := hp c hc
      have e1 : " \\;".toList = [' ', '\\', ';'] := by decide
      rw [e1] at this
      simp only [sep, List.mem_cons, List.not_mem_nil, or_false, decide_eq_true_eq] at this ⊢
      tauto
  rw [kind_simple h, hl]
  refine ⟨_, rfl, ?_⟩
  simp only [singleLabel, if_neg hne, Bool.false_eq_true, if_false]
  rw [hs, mathrm_eq, List.append_assoc]; rfl

example : singleLabel "\\alpha".toList simpleT = "$\\mathrm{alpha \\; Simple}$".toList := by decide
example : bothLabel "\\alpha".toList simpleT = "$\\mathrm{\\alpha \\; Simple}$".toList := by decide
example : Spelt "Both".toList "both" := by unfold Spelt; decide

/-- Violated: the stacked plot takes "resid_pct" out of the caller's dictionary, so of any number of plots made with the same dictionary
only the first honours it. -/
theorem C168_dict (n : Nat) (b : Bool) : callsPct (n + 1) (some b) = b :: List.replicate n true := by
  have : ∀ n, callsPct n none = List.replicate n true := by
    intro n
    induction n with
    | zero => rfl
    | succ n ih => simp [callsPct, popPct, List.replicate_succ, ih]
  simp [callsPct, popPct, this]

/-! ### C169: the window -/

/-- The band has the observation in its middle and twice the uncertainty as its width; it contains the observation iff the uncertainty is not
negative. -/
theorem C169_window (d : List (ℝ × ℝ)) : ∃ b : List (ℝ × ℝ),
    window (d.map (fun p => .fin p.1)) (some (d.map (fun p => .fin p.2))) = (b.map (fun q => .fin q.1), b.map (fun q => .fin q.2)) ∧
    b.length = d.length ∧ ∀ (i : Nat) p q, d[i]? = some p → b[i]? = some q →
      (q.1 + q.2) / 2 = p.1 ∧ q.2 - q.1 = 2 * p.2 ∧ (q.1 ≤ p.1 ∧ p.1 ≤ q.2 ↔ 0 ≤ p.2) := by
  refine ⟨d.map (fun p => (p.1 - p.2, p.1 + p.2)), ?_, by simp, ?_⟩
  · simp only [window, List.zipWith_map, List.zipWith_self, List.map_map]
    simp [Function.comp_def]
  · intro i p q hp hq
    rw [List.getElem?_map, hp] at hq
    simp only [Option.map_some, Option.some.injEq] at hq
    subst hq
    refine ⟨by ring, by ring, ⟨fun h => by linarith [h.1], fun h => ⟨by linarith, by linarith⟩⟩⟩

/-- Without weights both edges are the data. -/
theorem C169_unweighted (d : List ℝ) : window (d.map .fin) none = (d.map .fin, d.map .fin) := by
  simp [window, Function.comp_def]

/-- A missing observation or uncertainty leaves a gap in both edges and nowhere else. -/
theorem C169_gap (y w : List Fl) (h : y.length = w.length) (i : Nat) (a b : Fl) (ha : y[i]? = some a) (hb : w[i]? = some b)
    (hfin : ∀ v ∈ y ++ w, v = .nan ∨ ∃ r, v = .fin r) :
    ((window y (some w)).1[i]? = some .nan ↔ a = .nan ∨ b = .nan) ∧ ((window y (some w)).2[i]? = some .nan ↔ a = .nan ∨ b = .nan) := by
  have h1 : (window y (some w)).1[i]? = some (a - b) := by simp [window, List.getElem?_zipWith, ha, hb]
  have h2 : (window y (some w)).2[i]? = some (a + b) := by simp [window, List.getElem?_zipWith, ha, hb]
  rw [h1, h2]
  have ma := hfin a (List.mem_append_left _ (List.mem_of_getElem? ha))
  have mb := hfin b (List.mem_append_right _ (List.mem_of_getElem? hb))
  rcases ma with rfl | ⟨r, rfl⟩ <;> rcases mb with rfl | ⟨s, rfl⟩ <;> simp

example : window [.fin 5] (some [.fin 2]) = ([.fin 3], [.fin 7]) := by
  simp [window]; norm_num

end FFP
end SW
