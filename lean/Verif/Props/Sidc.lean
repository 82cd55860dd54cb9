import Verif.Sidc
import Verif.Props.Activity

/-!
# Properties C185 - C187: the sunspot-number object over its life; LISIRD missing values; colour-bar curve
-/

namespace SW
namespace Act

noncomputable section
open Classical

/-! ### C185: normalising a whole series -/

/-- one value of a cycle with values `g`, normalised -/
def scaled : NormKind → List Fl → Fl → Fl
  | .max, g, x => x / gmax g
  | .zscore, g, x => (x - gmean g) / gstd g
  | .feature, g, x => (x - gmin g) / (gmax g - gmin g)

/-- the values of a cycle -/
def cycleVals (c : Ivl) (rows : List (Int × Fl)) : List Fl := (rows.filter (fun r => decide (c.Mem r.1))).map Prod.snd

/-- cycles that do not overlap, each listed once -/
def Cycles (iv : List Ivl) : Prop := iv.Nodup ∧ iv.Pairwise (fun a b => ¬ Overlap a b)

theorem normFcn_eq (k : NormKind) (g : List Fl) : normFcn k g = g.map (scaled k g) := by cases k <;> rfl

theorem cycleOf_iff {iv : List Ivl} (h : Cycles iv) (t : Int) (c : Ivl) : cycleOf iv t = some c ↔ c ∈ iv ∧ c.Mem t := by
  unfold cycleOf
  constructor
  · intro hf
    have h1 := List.find?_some hf
    exact ⟨List.mem_of_find?_eq_some hf, by simpa using h1⟩
  · rintro ⟨hc, hm⟩
    cases hf : iv.find? (fun i => decide (i.Mem t)) with
    | none =>
      have := List.find?_eq_none.mp hf c hc
      simp [hm] at this
    | some d =>
      have hd := List.mem_of_find?_eq_some hf
      have hdm : d.Mem t := by simpa using List.find?_some hf
      by_cases hcd : c = d
      · rw [hcd]
      · exfalso
        have hsym : ∀ a b : Ivl, ¬ Overlap a b → ¬ Overlap b a := fun a b hab ⟨t, h1, h2⟩ => hab ⟨t, h2, h1⟩
        have : Std.Symm (fun a b : Ivl => ¬ Overlap a b) := ⟨hsym⟩
        exact h.2.forall hc hd hcd ⟨t, hm, hdm⟩

theorem cycleOf_none {iv : List Ivl} (t : Int) : cycleOf iv t = none ↔ ∀ c ∈ iv, ¬ c.Mem t := by
  unfold cycleOf
  rw [List.find?_eq_none]
  simp

theorem groupOf_eq {iv : List Ivl} (h : Cycles iv) (rows : List (Int × Fl)) {c : Ivl} (hc : c ∈ iv) :
    groupOf iv rows c = rows.filter (fun r => decide (c.Mem r.1)) := by
  unfold groupOf
  apply List.filter_congr
  intro r _
  simp only [decide_eq_decide]
  rw [cycleOf_iff h]
  exact ⟨fun h => h.2, fun h => ⟨hc, h⟩⟩

/-- the series before sorting -/
def pieces (iv : List Ivl) (k : NormKind) (rows : List (Int × Fl)) : List (Int × Fl) :=
  iv.flatMap (fun c => (rows.filter (fun r => decide (c.Mem r.1))).map (fun r => (r.1, scaled k (cycleVals c rows) r.2)))

theorem zip_maps {α β γ : Type} (l : List α) (f : α → β) (g : α → γ) : (l.map f).zip (l.map g) = l.map (fun a => (f a, g a)) := by
  rw [List.zip_map']

theorem runNorm_perm {iv : List Ivl} (h : Cycles iv) (k : NormKind) (rows : List (Int × Fl)) : (runNorm iv k rows).Perm (pieces iv k rows) := by
  unfold runNorm
  refine (List.perm_insertionSort _ _).trans ?_
  unfold pieces
  apply List.Perm.of_eq
  apply List.flatMap_congr
  intro c hc
  rw [groupOf_eq h rows hc, normFcn_eq, List.map_map, zip_maps]
  rfl

theorem pieces_keys {iv : List Ivl} (h : Cycles iv) (k : NormKind) (rows : List (Int × Fl)) (hr : (rows.map Prod.fst).Nodup) :
    ((pieces iv k rows).map Prod.fst).Nodup := by
  unfold pieces
  rw [List.map_flatMap]
  have e : ∀ c : Ivl, ((rows.filter (fun r => decide (c.Mem r.1))).map (fun r => (r.1, scaled k (cycleVals c rows) r.2))).map Prod.fst =
      (rows.filter (fun r => decide (c.Mem r.1))).map Prod.fst := by
    intro c; rw [List.map_map]; rfl
  simp only [e]
  rw [List.nodup_flatMap]
  refine ⟨fun c _ => hr.sublist (List.filter_sublist.map _), ?_⟩
  apply h.2.imp
  intro a b hab t h1 h2
  obtain ⟨r, hr1, rfl⟩ := List.mem_map.mp h1
  obtain ⟨r', hr2, e2⟩ := List.mem_map.mp h2
  have m1 : a.Mem r.1 := by simpa using (List.mem_filter.mp hr1).2
  have m2 : b.Mem r'.1 := by simpa using (List.mem_filter.mp hr2).2
  rw [e2] at m2
  exact hab ⟨_, m1, m2⟩

theorem find_key (s : List (Int × Fl)) (hs : (s.map Prod.fst).Nodup) (t : Int) :
    (∀ v, (t, v) ∈ s → s.find? (fun p => decide (p.1 = t)) = some (t, v)) ∧
    ((∀ v, (t, v) ∉ s) → s.find? (fun p => decide (p.1 = t)) = none) := by
  constructor
  · intro v hv
    cases hf : s.find? (fun p => decide (p.1 = t)) with
    | none =>
      have := List.find?_eq_none.mp hf _ hv
      simp at this
    | some p =>
      have hp := List.mem_of_find?_eq_some hf
      have hp1 : p.1 = t := by simpa using List.find?_some hf
      have : p = (t, v) := List.inj_on_of_nodup_map hs hp hv hp1
      rw [this]
  · intro hn
    rw [List.find?_eq_none]
    intro p hp
    simp only [decide_eq_true_eq]
    intro e
    exact hn p.2 (by rw [← e]; exact hp)

/-- C185: in the normalised column a row of a cycle holds its value scaled with the values of exactly that cycle; a row in no cycle is
missing; nothing else is in the column -/
theorem C185_values (iv : List Ivl) (h : Cycles iv) (k : NormKind) (rows : List (Int × Fl)) (hr : (rows.map Prod.fst).Nodup) :
    (align (rows.map Prod.fst) (runNorm iv k rows)).length = rows.length ∧
    ∀ (i : Nat) (t : Int) (v : Fl), rows[i]? = some (t, v) →
      ((∀ c ∈ iv, ¬ c.Mem t) → (align (rows.map Prod.fst) (runNorm iv k rows))[i]? = some .nan) ∧
      (∀ c ∈ iv, c.Mem t → (align (rows.map Prod.fst) (runNorm iv k rows))[i]? = some (scaled k (cycleVals c rows) v)) := by
  have hp := runNorm_perm h k rows
  have hkeys : ((runNorm iv k rows).map Prod.fst).Nodup := (hp.map Prod.fst).nodup_iff.mpr (pieces_keys h k rows hr)
  refine ⟨by simp [align], ?_⟩
  intro i t v hi
  have hcol : ∀ s, (align (rows.map Prod.fst) s)[i]? = some (((s.find? (fun p => decide (p.1 = t))).map Prod.snd).getD .nan) := by
    intro s; unfold align; rw [List.getElem?_map, List.getElem?_map, hi]; rfl
  rw [hcol]
  obtain ⟨f1, f2⟩ := find_key _ hkeys t
  constructor
  · intro hnone
    rw [f2]
    · rfl
    · intro w hw
      have hw' := hp.mem_iff.mp hw
      unfold pieces at hw'
      obtain ⟨c, hc, hq⟩ := List.mem_flatMap.mp hw'
      obtain ⟨r, hr1, e⟩ := List.mem_map.mp hq
      have m1 : c.Mem r.1 := by simpa using (List.mem_filter.mp hr1).2
      have : r.1 = t := (Prod.mk.inj e).1
      rw [this] at m1
      exact hnone c hc m1
  · intro c hc hm
    rw [f1 (scaled k (cycleVals c rows) v)]
    · rfl
    · rw [hp.mem_iff]
      unfold pieces
      refine List.mem_flatMap.mpr ⟨c, hc, List.mem_map.mpr ⟨(t, v), ?_, rfl⟩⟩
      exact List.mem_filter.mpr ⟨List.mem_of_getElem? hi, by simpa using hm⟩

/-- C185: the normalised values of a cycle depend on the data of that cycle alone -/
theorem C185_local (iv : List Ivl) (h : Cycles iv) (k : NormKind) (rows rows' : List (Int × Fl)) (hr : (rows.map Prod.fst).Nodup)
    (hr' : (rows'.map Prod.fst).Nodup) (c : Ivl) (hc : c ∈ iv) (hsame : rows.filter (fun r => decide (c.Mem r.1)) = rows'.filter (fun r => decide (c.Mem r.1)))
    (i j : Nat) (t : Int) (v : Fl) (hi : rows[i]? = some (t, v)) (hj : rows'[j]? = some (t, v)) (hm : c.Mem t) :
    (align (rows.map Prod.fst) (runNorm iv k rows))[i]? = (align (rows'.map Prod.fst) (runNorm iv k rows'))[j]? := by
  rw [((C185_values iv h k rows hr).2 i t v hi).2 c hc hm, ((C185_values iv h k rows' hr').2 j t v hj).2 c hc hm]
  unfold cycleVals
  rw [hsame]

/-- C185: divided by the maximum, the rows of a cycle with a positive maximum `M` hold `v/M`, at most 1, and 1 where the maximum is -/
theorem C185_max (iv : List Ivl) (h : Cycles iv) (rows : List (Int × Fl)) (hr : (rows.map Prod.fst).Nodup) (c : Ivl) (hc : c ∈ iv) (M : ℝ)
    (hM : IsMax M (cycleVals c rows)) (hpos : 0 < M) (i : Nat) (t : Int) (v : ℝ) (hi : rows[i]? = some (t, .fin v)) (hm : c.Mem t) :
    (align (rows.map Prod.fst) (runNorm iv .max rows))[i]? = some (.fin (v / M)) ∧ v / M ≤ 1 ∧ (v / M = 1 ↔ v = M) := by
  rw [((C185_values iv h .max rows hr).2 i t _ hi).2 c hc hm]
  have hv : v ≤ M := hM.2 v (by
    unfold cycleVals
    exact List.mem_map.mpr ⟨(t, .fin v), List.mem_filter.mpr ⟨List.mem_of_getElem? hi, by simpa using hm⟩, rfl⟩)
  refine ⟨?_, (div_le_one hpos).mpr hv, by rw [div_eq_one_iff_eq hpos.ne']⟩
  show some (Fl.fin v / gmax _) = _
  rw [gmax_eq hM, Fl.fin_div _ _ hpos.ne']

/-- non-vacuity -/
example : Cycles [⟨0, 10⟩, ⟨10, 20⟩] ∧ ([(5, Fl.fin 3), (10, .fin 6), (15, .nan), (25, .fin 2)].map (Prod.fst : Int × Fl → Int)).Nodup ∧
    IsMax 6 (cycleVals ⟨0, 10⟩ [(5, Fl.fin 3), (10, .fin 6), (15, .nan), (25, .fin 2)]) := by
  refine ⟨⟨by decide, ?_⟩, by decide, ?_⟩
  · simp only [List.pairwise_cons, List.mem_cons, List.not_mem_nil, or_false, forall_eq, List.Pairwise.nil, and_true, false_implies, implies_true]
    rintro ⟨t, h1, h2⟩
    unfold Ivl.Mem at h1 h2
    simp only [] at h1 h2
    omega
  · have : cycleVals ⟨0, 10⟩ [(5, Fl.fin 3), (10, .fin 6), (15, .nan), (25, .fin 2)] = [.fin 3, .fin 6] := by
      simp [cycleVals, Ivl.Mem]
    rw [this]
    refine ⟨by simp, ?_⟩
    intro r hr
    simp only [List.mem_cons, Fl.fin.injEq, List.not_mem_nil, or_false] at hr
    rcases hr with rfl | rfl <;> norm_num

/-! ### C186: the object over its life -/

/-- C186: an unknown normalisation is refused with AssertionError and changes nothing; a known one sets the normalised column and its name -/
theorem C186_run (iv : List Ivl) (s : Sidc) (b : String) :
    ((¬ (b = "max" ∨ b = "zscore" ∨ b = "feature-scale")) → s.runNormalization iv b = (.error .assertionError, s)) ∧
    ((b = "max" ∨ b = "zscore" ∨ b = "feature-scale") →
      ∃ k, parseNorm b = .ok k ∧ (s.runNormalization iv b).2.nssn = some (align (s.rows.map Prod.fst) (runNorm iv k s.rows)) ∧
        (s.runNormalization iv b).2.normBy = some b ∧ (s.runNormalization iv b).2.rows = s.rows ∧
        (s.interp = none → (s.runNormalization iv b).1 = .ok (runNorm iv k s.rows))) := by
  have key : ∀ k, parseNorm b = .ok k → (s.runNormalization iv b).2.nssn = some (align (s.rows.map Prod.fst) (runNorm iv k s.rows)) ∧
        (s.runNormalization iv b).2.normBy = some b ∧ (s.runNormalization iv b).2.rows = s.rows ∧
        (s.interp = none → (s.runNormalization iv b).1 = .ok (runNorm iv k s.rows)) := by
    intro k hk
    unfold Sidc.runNormalization
    rw [hk]
    simp only []
    cases s.interp with
    | none => exact ⟨rfl, rfl, rfl, fun _ => rfl⟩
    | some f =>
      simp only []
      cases f.col .ssn with
      | none => exact ⟨rfl, rfl, rfl, by simp⟩
      | some v => exact ⟨rfl, rfl, rfl, by simp⟩
  constructor
  · intro hn
    push Not at hn
    unfold Sidc.runNormalization parseNorm
    rw [if_neg hn.1, if_neg hn.2.1, if_neg hn.2.2]
  · intro hb
    have : ∃ k, parseNorm b = .ok k := by
      rcases hb with rfl | rfl | rfl
      · exact ⟨.max, rfl⟩
      · exact ⟨.zscore, rfl⟩
      · exact ⟨.feature, rfl⟩
    obtain ⟨k, hk⟩ := this
    exact ⟨k, hk, key k hk⟩

/-- a call that does not normalise -/
def Call.reads : Call → Prop
  | .run _ => False
  | _ => True

/-- C186: once normalised, the normalised column and its name stay what the last `run_normalization` made them, whatever else is called -/
theorem C186_cached (iv : List Ivl) (S : Spline) (l : List Call) (hl : ∀ c ∈ l, c.reads) (s : Sidc) (v : List Fl) (hv : s.nssn = some v) :
    (l.foldl (fun s c => s.step iv S c) s).nssn = some v ∧ (l.foldl (fun s c => s.step iv S c) s).normBy = s.normBy ∧
    (l.foldl (fun s c => s.step iv S c) s).rows = s.rows ∧
    ((l.foldl (fun s c => s.step iv S c) s).normalized iv).1 = .ok ((s.rows.map Prod.fst).zip v) := by
  have hstep : ∀ (s : Sidc) (c : Call), c.reads → s.nssn = some v → (s.step iv S c).nssn = some v ∧ (s.step iv S c).normBy = s.normBy ∧
      (s.step iv S c).rows = s.rows := by
    intro s c hc hv
    cases c with
    | run b => exact absurd hc (by simp [Call.reads])
    | normalized => simp [Sidc.step, Sidc.normalized, hv]
    | interpolate t k =>
      have : ∃ I, s.step iv S (.interpolate t k) = { s with interp := I } := by
        show ∃ I, (s.interpolateData S t k).2 = _
        unfold Sidc.interpolateData
        split
        · exact ⟨s.interp, rfl⟩
        · split
          · exact ⟨s.interp, rfl⟩
          · exact ⟨_, rfl⟩
      obtain ⟨I, hI⟩ := this
      rw [hI]
      exact ⟨hv, rfl, rfl⟩
    | band k d => exact ⟨hv, rfl, rfl⟩
    | normBy => exact ⟨hv, rfl, rfl⟩
  have key : (l.foldl (fun s c => s.step iv S c) s).nssn = some v ∧ (l.foldl (fun s c => s.step iv S c) s).normBy = s.normBy ∧
      (l.foldl (fun s c => s.step iv S c) s).rows = s.rows := by
    induction l generalizing s with
    | nil => exact ⟨hv, rfl, rfl⟩
    | cons c l ih =>
      obtain ⟨e1, e2, e3⟩ := hstep s c (hl c (by simp)) hv
      obtain ⟨g1, g2, g3⟩ := ih (fun c hc => hl c (by simp [hc])) (s.step iv S c) e1
      exact ⟨g1, g2.trans e2, g3.trans e3⟩
  refine ⟨key.1, key.2.1, key.2.2, ?_⟩
  unfold Sidc.normalized
  rw [key.1, key.2.2]

/-- C186 (violated): two successive reads of `normalized` of a new object differ: the first holds only the rows of cycles, in order of time,
the second all rows; they have equally many entries only if every row lies in a cycle -/
theorem C186_first_read (iv : List Ivl) (h : Cycles iv) (rows : List (Int × Fl)) (hr : (rows.map Prod.fst).Nodup) :
    ∃ a b : List (Int × Fl), ((Sidc.new rows).normalized iv).1 = .ok a ∧ ((((Sidc.new rows).normalized iv).2).normalized iv).1 = .ok b ∧
      a.Pairwise (fun p q => p.1 ≤ q.1) ∧ (∀ t, t ∈ a.map Prod.fst ↔ t ∈ rows.map Prod.fst ∧ ∃ c ∈ iv, c.Mem t) ∧
      b.map Prod.fst = rows.map Prod.fst ∧ (a.length = b.length ↔ ∀ r ∈ rows, ∃ c ∈ iv, c.Mem r.1) := by
  refine ⟨runNorm iv .max rows, (rows.map Prod.fst).zip (align (rows.map Prod.fst) (runNorm iv .max rows)), rfl, rfl, ?_, ?_, ?_, ?_⟩
  · have : IsTrans (Int × Fl) (fun a b => a.1 ≤ b.1) := ⟨fun a b c h1 h2 => le_trans h1 h2⟩
    have : Std.Total (α := Int × Fl) (fun a b => a.1 ≤ b.1) := ⟨fun a b => le_total _ _⟩
    exact List.pairwise_insertionSort _ _
  · intro t
    rw [((runNorm_perm h .max rows).map Prod.fst).mem_iff]
    unfold pieces
    simp only [List.mem_map, List.mem_flatMap, List.mem_filter, decide_eq_true_eq]
    constructor
    · rintro ⟨p, ⟨c, hc, r, ⟨hr1, hr2⟩, rfl⟩, rfl⟩
      exact ⟨⟨r, hr1, rfl⟩, c, hc, hr2⟩
    · rintro ⟨⟨r, hr1, rfl⟩, c, hc, hm⟩
      exact ⟨_, ⟨c, hc, r, ⟨hr1, hm⟩, rfl⟩, rfl⟩
  · rw [List.map_fst_zip (by simp [align])]
  · rw [(runNorm_perm h .max rows).length_eq]
    have hlen : ((rows.map Prod.fst).zip (align (rows.map Prod.fst) (runNorm iv .max rows))).length = rows.length := by simp [align]
    rw [hlen]
    have hperm : ((pieces iv .max rows).map Prod.fst).Perm ((rows.filter (fun r => decide (∃ c ∈ iv, c.Mem r.1))).map Prod.fst) := by
      rw [List.perm_ext_iff_of_nodup (pieces_keys h .max rows hr) (hr.sublist (List.filter_sublist.map _))]
      intro t
      unfold pieces
      simp only [List.mem_map, List.mem_flatMap, List.mem_filter, decide_eq_true_eq]
      constructor
      · rintro ⟨p, ⟨c, hc, r, ⟨hr1, hr2⟩, rfl⟩, rfl⟩
        exact ⟨r, ⟨hr1, c, hc, hr2⟩, rfl⟩
      · rintro ⟨r, ⟨hr1, c, hc, hm⟩, rfl⟩
        exact ⟨_, ⟨c, hc, r, ⟨hr1, hm⟩, rfl⟩, rfl⟩
    have e := hperm.length_eq
    rw [List.length_map, List.length_map] at e
    rw [e, List.length_filter_eq_length_iff]
    simp

/-- C186 (violated): after the normalised series was interpolated, `run_normalization` fails with KeyError, having replaced the normalised column
all the same -/
theorem C186_run_after_nssn (iv : List Ivl) (S : Spline) (s : Sidc) (target : List Int) (out : List Fl) (b : String) (k : NormKind)
    (hk : parseNorm b = .ok k) (hi : (s.interpolateData S target .nssn).1 = .ok out) :
    ((s.interpolateData S target .nssn).2.runNormalization iv b).1 = .error .keyError ∧
    ((s.interpolateData S target .nssn).2.runNormalization iv b).2.nssn = some (align (s.rows.map Prod.fst) (runNorm iv k s.rows)) ∧
    ((s.interpolateData S target .nssn).2.runNormalization iv b).2.normBy = some b := by
  have hs : (s.interpolateData S target .nssn).2 = { s with interp := some ⟨target, fun q => if q = .nssn then some out else none⟩ } := by
    unfold Sidc.interpolateData at hi ⊢
    cases hc : s.column .nssn with
    | none => rw [hc] at hi; simp at hi
    | some v =>
      rw [hc] at hi
      simp only [] at hi ⊢
      cases hq : interpolate S (measuredRows (s.rows.map Prod.fst) v) target with
      | error e => rw [hq] at hi; simp at hi
      | ok o =>
        rw [hq] at hi
        simp only [Except.ok.injEq] at hi
        subst hi; rfl
  rw [hs]
  unfold Sidc.runNormalization
  rw [hk]
  simp

/-- C186 (violated): the interpolated normalised number is not the normalised number at the target: it is scaled with the interpolated values
of the cycle. A single target in a cycle gets 1 whatever its sunspot number (positive), and no number at all under the other two scalings -/
theorem C186_interpolated (iv : List Ivl) (h : Cycles iv) (s : Sidc) (idx : List Int) (hidx : idx.Nodup) (v : List Fl) (hlen : v.length = idx.length)
    (hi : s.interp = some ⟨idx, fun q => if q = .ssn then some v else none⟩) (b : String) (k : NormKind) (hk : parseNorm b = .ok k)
    (c : Ivl) (hc : c ∈ iv) (i : Nat) (t : Int) (x : ℝ) (ht : idx[i]? = some t) (hx : v[i]? = some (.fin x)) (hm : c.Mem t) (hx0 : 0 < x)
    (honly : ∀ u ∈ idx, c.Mem u → u = t) :
    ∃ f w, (s.runNormalization iv b).2.interp = some f ∧ f.col .nssn = some w ∧
      (k = .max → w[i]? = some (.fin 1)) ∧ (k ≠ .max → w[i]? = some .nan) := by
  have hz : (idx.zip v).map Prod.fst = idx := List.map_fst_zip (by omega)
  have hrow : (idx.zip v)[i]? = some (t, .fin x) := List.getElem?_zip_eq_some.mpr ⟨ht, hx⟩
  have hcv : cycleVals c (idx.zip v) = [.fin x] := by
    unfold cycleVals
    have hmem : (t, Fl.fin x) ∈ idx.zip v := List.mem_of_getElem? hrow
    have hkeys : ((idx.zip v).map Prod.fst).Nodup := by rw [hz]; exact hidx
    have hall : (idx.zip v).filter (fun r => decide (c.Mem r.1)) = [(t, .fin x)] := by
      apply List.perm_singleton.mp
      rw [List.perm_ext_iff_of_nodup ((List.Nodup.of_map _ hkeys).filter _) (List.nodup_singleton _)]
      intro p
      simp only [List.mem_filter, decide_eq_true_eq, List.mem_singleton]
      constructor
      · rintro ⟨hp, hpm⟩
        have : p.1 = t := honly p.1 (by have := List.mem_map_of_mem (f := Prod.fst) hp; rwa [hz] at this) hpm
        exact List.inj_on_of_nodup_map hkeys hp hmem this
      · rintro rfl; exact ⟨hmem, hm⟩
    rw [hall]; rfl
  have hval := ((C185_values iv h k (idx.zip v) (by rw [hz]; exact hidx)).2 i t _ hrow).2 c hc hm
  rw [hz, hcv] at hval
  refine ⟨⟨idx, fun q => if q = .nssn then some (align idx (runNorm iv k (idx.zip v))) else if q = .ssn then some v else none⟩,
    align idx (runNorm iv k (idx.zip v)), ?_, by simp, ?_, ?_⟩
  · unfold Sidc.runNormalization
    rw [hk, hi]
    simp
  · rintro rfl
    rw [hval]
    simp only [scaled, gmax, vals, List.filterMap_cons, List.filterMap_nil, List.foldl_nil]
    rw [Fl.fin_div _ _ hx0.ne', div_self hx0.ne']
  · intro hk'
    rw [hval]
    cases k with
    | max => exact absurd rfl hk'
    | zscore =>
      have : gstd [Fl.fin x] = .nan := by unfold gstd; rw [if_pos (by simp [vals])]
      simp only [scaled, this, Fl.div_nan]
    | feature =>
      simp only [scaled, gmax, gmin, vals, List.filterMap_cons, List.filterMap_nil, List.foldl_nil]
      rw [Fl.fin_sub, sub_self]
      congr 1
      show Fl.div _ _ = _
      simp [Fl.div]

/-- C186: banding: bands of the normalised number wider than 1 are refused; before normalising KeyError; before interpolating AttributeError;
when the interpolated frame lacks the series TypeError; otherwise every interpolated value has the band of C66 with the maximum of the data -/
theorem C186_band (s : Sidc) (key : Key) (d mx : ℝ) (hd : 0 < d) (hk : key = .nssn → d < 1) (c : List Fl) (hmx : gmax c = .fin mx) :
    (key = .nssn → s.nssn = none → s.cutBand key d = .error .keyError) ∧
    (s.column key = some c → s.interp = none → s.cutBand key d = .error .attributeError) ∧
    (s.column key = some c → ∀ f, s.interp = some f → f.col key = none → s.cutBand key d = .error .typeError) ∧
    (s.column key = some c → ∀ f v, s.interp = some f → f.col key = some v →
      ∃ out, s.cutBand key d = .ok out ∧ out.length = v.length ∧
        ∀ (i : Nat), (v[i]? = some .nan → out[i]? = some none) ∧
          ∀ x : ℝ, v[i]? = some (.fin x) → ∃ o, out[i]? = some o ∧
            (∀ n, o = some n ↔ n < ⌈mx / (2 * d)⌉₊ ∧ n * (2 * d) - d < x ∧ x ≤ n * (2 * d) + d)) := by
  have h0 : ¬ (key = .nssn ∧ 1 ≤ d) := fun h => absurd (hk h.1) (by linarith [h.2])
  refine ⟨?_, ?_, ?_, ?_⟩
  · rintro rfl hn
    unfold Sidc.cutBand; rw [if_neg h0]
    simp [Sidc.column, hn]
  · intro hc hi
    unfold Sidc.cutBand; rw [if_neg h0]
    simp [hc, hmx, hi]
  · intro hc f hi hf
    unfold Sidc.cutBand; rw [if_neg h0]
    simp [hc, hmx, hi, hf]
  · intro hc f v hi hf
    refine ⟨v.map (bandOf mx d), ?_, by simp, ?_⟩
    · unfold Sidc.cutBand; rw [if_neg h0]
      simp [hc, hmx, hi, hf]
    · intro i
      rw [List.getElem?_map]
      refine ⟨fun hv => by rw [hv]; rfl, fun x hv => ⟨bandOf mx d (.fin x), by rw [hv]; rfl, ?_⟩⟩
      intro n
      unfold bandOf bandCount
      simp only []
      constructor
      · intro hf
        have h1 := List.mem_range.mp (List.mem_of_find?_eq_some hf)
        have h2 : inBand d n x := by simpa using List.find?_some hf
        exact ⟨h1, h2.1, h2.2⟩
      · rintro ⟨h1, h2, h3⟩
        cases hf : (List.range ⌈mx / (2 * d)⌉₊).find? (fun k => decide (inBand d k x)) with
        | none =>
          have := List.find?_eq_none.mp hf n (List.mem_range.mpr h1)
          simp [inBand, h2, h3] at this
        | some j =>
          have h4 : inBand d j x := by simpa using List.find?_some hf
          have : j = n := by
            by_contra hne
            rcases lt_or_gt_of_ne hne with hlt | hlt
            · have : (j : ℝ) + 1 ≤ n := by exact_mod_cast hlt
              have := h4.2
              nlinarith
            · have : (n : ℝ) + 1 ≤ j := by exact_mod_cast hlt
              have := h4.1
              nlinarith
          rw [this]

/-- C186: the name of the normalisation is available exactly after one was run -/
theorem C186_norm_by (s : Sidc) : (∀ b, s.getNormBy = .ok b ↔ s.normBy = some b) ∧ (s.getNormBy = .error .attributeError ↔ s.normBy = none) := by
  unfold Sidc.getNormBy
  cases s.normBy <;> simp

/-- non-vacuity: one target in the cycle -/
example : Cycles [⟨0, 10⟩] ∧ (∀ u ∈ [5, 15], (⟨0, 10⟩ : Ivl).Mem u → u = 5) ∧ parseNorm "zscore" = .ok .zscore := by
  refine ⟨⟨by decide, by simp⟩, ?_, rfl⟩
  intro u hu hm
  unfold Ivl.Mem at hm
  simp only [List.mem_cons, List.not_mem_nil, or_false] at hu
  simp only [] at hm
  omega

/-! ### C187: LISIRD, colour bar -/

/-- C187: Lyman alpha: every value equal to the common missing marker becomes missing, every other value is kept. Violated: a marker that
is itself not a number, or different markers, are not handled; the other series keep any marker as a measurement -/
theorem C187_lisird (cols : List (List Fl)) (mv mv' : ℝ) (a b : Fl) :
    (∃ out, lisirdNans "Lalpha" (.fin mv) (.fin mv) cols = .ok out ∧ out.length = cols.length ∧
      ∀ (i j : Nat) (c : List Fl) (v : Fl), cols[i]? = some c → c[j]? = some v → ∃ c', out[i]? = some c' ∧
        (v = .fin mv → c'[j]? = some .nan) ∧ (v ≠ .fin mv → c'[j]? = some v)) ∧
    (mv ≠ mv' → lisirdNans "Lalpha" (.fin mv) (.fin mv') cols = .error .notImplemented) ∧
    lisirdNans "Lalpha" .nan .nan cols = .error .notImplemented ∧
    (∀ k ∈ ["CaK", "MgII", "f107-noaa", "f107-penticton"], lisirdNans k a b cols = .ok cols) ∧
    (∀ k, k ∉ ["Lalpha", "CaK", "MgII", "f107-noaa", "f107-penticton"] → lisirdNans k a b cols = .error .notImplemented) ∧
    (∀ n, lisirdNormalize n = .error .notImplemented) := by
  have h1 : "Lalpha" ∉ ["CaK", "MgII", "f107-noaa", "f107-penticton"] := by decide
  refine ⟨?_, ?_, ?_, ?_, ?_, fun n => rfl⟩
  · refine ⟨cols.map (fun c => c.map (fun v => if v = .fin mv then .nan else v)), ?_, by simp, ?_⟩
    · unfold lisirdNans
      rw [if_neg h1, if_pos rfl, if_pos ⟨by rw [Fl.le_fin], by rw [Fl.le_fin]⟩]
    · intro i j c v hc hv
      refine ⟨_, by rw [List.getElem?_map, hc]; rfl, ?_, ?_⟩
      · rintro rfl; rw [List.getElem?_map, hv]; simp
      · intro hne; rw [List.getElem?_map, hv]; simp [hne]
  · intro hne
    unfold lisirdNans
    rw [if_neg h1, if_pos rfl, if_neg]
    rintro ⟨h2, h3⟩
    rw [Fl.le_fin] at h2 h3
    exact hne (le_antisymm h2 h3)
  · unfold lisirdNans
    rw [if_neg h1, if_pos rfl, if_neg (by simp [Fl.le])]
  · intro k hk; unfold lisirdNans; rw [if_pos hk]
  · intro k hk
    have h2 : k ≠ "Lalpha" := fun h => hk (by rw [h]; simp)
    have h3 : k ∉ ["CaK", "MgII", "f107-noaa", "f107-penticton"] := fun h => hk (List.mem_cons_of_mem _ h)
    unfold lisirdNans; rw [if_neg h3, if_neg h2]

theorem round100_spec (x : ℝ) : ∃ q : Int, round100 x = 100 * q ∧ |x - 100 * q| ≤ 50 := by
  have h1 := Int.floor_le (x / 100)
  have h2 := Int.lt_floor_add_one (x / 100)
  unfold round100
  simp only []
  refine ⟨_, rfl, ?_⟩
  generalize ⌊x / 100⌋ = q at *
  have hx : x = 100 * (x / 100) := by ring
  generalize x / 100 = y at *
  rw [hx, abs_le]
  split_ifs <;> push_cast <;> constructor <;> linarith

/-- C187: a maximum halfway between two hundreds is rounded to the even one: 250 to 200, 350 to 400. -/
theorem C187_ties (k : Int) : barTop (100 * (2 * k) + 50) = 100 * (2 * k) ∧ barTop (100 * (2 * k + 1) + 50) = 100 * (2 * k + 2) := by
  have key : ∀ m : Int, barTop (100 * m + 50) = 100 * (if m % 2 = 0 then m else m + 1) := by
    intro m
    unfold barTop round100
    have e : ⌊((100 * m + 50 : ℝ)) / 100⌋ = m := by
      rw [Int.floor_eq_iff]; constructor <;> linarith
    have f : (100 * m + 50 : ℝ) / 100 - m = 1 / 2 := by ring
    simp only [e, f]
    rw [if_neg (by norm_num), if_neg (by norm_num)]
  constructor
  · have := key (2 * k)
    push_cast at this
    rw [this, if_pos (by omega)]
  · have := key (2 * k + 1)
    push_cast at this
    rw [this, if_neg (by omega)]
    ring

/-- C187 (violated): the upper end of the colour-bar scale is the maximum rounded to hundreds, so within 50 of it but not above it: a value is
drawn on the bar exactly up to the rounded maximum; whenever the maximum is rounded down it is drawn beyond the end, and a maximum below 50 is
drawn at infinity -/
theorem C187_colorbar (mx y0 y1 : ℝ) (hy : y0 < y1) :
    |mx - barTop mx| ≤ 50 ∧
    (0 < barTop mx → ∀ v : ℝ, 0 ≤ v → ∃ y, barY mx y0 y1 (.fin v) = .fin y ∧ y0 ≤ y ∧ (y ≤ y1 ↔ v ≤ barTop mx) ∧
      (y - y0) * barTop mx = v * (y1 - y0)) ∧
    (0 < barTop mx → (barTop mx : ℝ) < mx → ∃ y, barY mx y0 y1 (.fin mx) = .fin y ∧ y1 < y) ∧
    (0 < mx → mx < 50 → barTop mx = 0 ∧ barY mx y0 y1 (.fin mx) = .pinf) := by
  obtain ⟨q, hq, hb⟩ := round100_spec mx
  have hpt : 0 < barTop mx → ∀ v : ℝ, barY mx y0 y1 (.fin v) = .fin (v / barTop mx * (y1 - y0) + y0) := by
    intro hp v
    have hp' : ((barTop mx : ℤ) : ℝ) ≠ 0 := by exact_mod_cast hp.ne'
    unfold barY
    rw [Fl.fin_div _ _ hp', Fl.fin_mul, Fl.fin_add]
  have hmain : 0 < barTop mx → ∀ v : ℝ, (v / barTop mx * (y1 - y0) + y0 ≤ y1 ↔ v ≤ barTop mx) := by
    intro hp v
    have hp' : (0 : ℝ) < barTop mx := by exact_mod_cast hp
    rw [← div_le_one hp' (a := v)]
    have hd : 0 < y1 - y0 := by linarith
    constructor
    · intro hle
      by_contra hgt
      push Not at hgt
      nlinarith
    · intro hle
      nlinarith
  refine ⟨?_, ?_, ?_, ?_⟩
  · unfold barTop; rw [hq]; push_cast; exact hb
  · intro hp v hv
    have hp' : (0 : ℝ) < barTop mx := by exact_mod_cast hp
    refine ⟨_, hpt hp v, ?_, hmain hp v, ?_⟩
    · have : 0 ≤ v / barTop mx := div_nonneg hv hp'.le
      nlinarith
    · field_simp; ring
  · intro hp hlt
    refine ⟨_, hpt hp mx, ?_⟩
    by_contra hle
    push Not at hle
    have := (hmain hp mx).mp hle
    linarith
  · intro h0 h50
    have htop : barTop mx = 0 := by
      unfold barTop round100
      have e : ⌊mx / 100⌋ = 0 := by
        rw [Int.floor_eq_iff]; constructor <;> push_cast <;> linarith
      simp only [e]
      rw [if_pos (by push_cast; linarith)]
      rfl
    refine ⟨htop, ?_⟩
    unfold barY
    rw [htop]
    have e1 : (Fl.fin mx / Fl.fin ((0 : ℤ) : ℝ) : Fl) = .pinf := by
      show Fl.div _ _ = _
      simp [Fl.div, h0]
    rw [e1]
    have e2 : (Fl.pinf * Fl.fin (y1 - y0) : Fl) = .pinf := by
      show Fl.infMul true (y1 - y0) = _
      unfold Fl.infMul
      have h1 : ¬ (y1 - y0 = 0) := by intro h; linarith
      simp [h1, hy]
    rw [e2]; rfl

/-- C187: the tick labels are 0, half the end and the end -/
theorem C187_ticks (mx : ℝ) : ∃ m e : Int, barTicks mx = [0, m, e] ∧ 2 * m = e ∧ e % 100 = 0 := by
  obtain ⟨q, hq, -⟩ := round100_spec mx
  refine ⟨50 * q, 100 * q, ?_, by ring, by omega⟩
  unfold barTicks barTop
  rw [hq]
  have : ⌊(((100 * q : ℤ)) : ℝ) / 2⌋ = 50 * q := by
    rw [show (((100 * q : ℤ)) : ℝ) / 2 = ((50 * q : ℤ) : ℝ) by push_cast; ring, Int.floor_intCast]
  rw [this]

/-- non-vacuity: a maximum of 149 is rounded down to 100 -/
example : barTop 149 = 100 := by
  unfold barTop round100
  have e : ⌊(149 : ℝ) / 100⌋ = 1 := by rw [Int.floor_eq_iff]; norm_num
  simp only [e]
  norm_num

/-- C186: asking for the interpolation of a column that does not exist yet (the normalised numbers before any normalisation) is a
`KeyError` and changes nothing. -/
theorem C186_no_column (S : Spline) (target : List Int) (key : Key) (s : Sidc) (h : s.column key = none) :
    s.interpolateData S target key = (.error .keyError, s) := by
  unfold Sidc.interpolateData; rw [h]

end
end Act
end SW
