import Verif.SsnTable
import Verif.Props.Activity

/-!
# Properties of the shipped table of solar cycles

C207.
-/

namespace SW
namespace Act

noncomputable section
open Classical

/-! ### Bands in general -/

theorem overlap_iff (dl dr x y : Int) (h : 0 < dl + dr) :
    Overlap ⟨x - dl, x + dr⟩ ⟨y - dl, y + dr⟩ ↔ x - y < dl + dr ∧ y - x < dl + dr := by
  unfold Overlap Ivl.Mem
  constructor
  · rintro ⟨t, ⟨a, b⟩, c, d⟩
    simp only at a b c d
    omega
  · rintro ⟨a, b⟩
    rcases le_total x y with h' | h'
    · exact ⟨x + dr, ⟨by simp only; omega, by simp only; omega⟩, by simp only; omega, by simp only; omega⟩
    · exact ⟨y + dr, ⟨by simp only; omega, by simp only; omega⟩, by simp only; omega, by simp only; omega⟩

/-- two extrema are at least `w` apart -/
def Apart (w : Int) (e f : Int × String × Int) : Prop := w ≤ e.2.2 - f.2.2 ∨ w ≤ f.2.2 - e.2.2

/-- `e` is a selected extremum: a minimum or maximum of a selected cycle, of a selected kind, that is not missing -/
theorem mem_selected (cyc : Int → Bool) (kinds : List String) (table : List Row) (e : Int × String × Int) :
    e ∈ selected cyc kinds table ↔ ∃ r ∈ table, cyc r.num = true ∧ e.2.1 ∈ kinds ∧ e.1 = r.num ∧
      (if e.2.1 = "Min" then r.min else r.max) = some e.2.2 := by
  obtain ⟨n, k, x⟩ := e
  unfold selected
  simp only [List.mem_flatMap, List.mem_filter, List.mem_filterMap, Option.map_eq_some_iff, Prod.mk.injEq]
  constructor
  · rintro ⟨r, ⟨hr, hc⟩, k', hk', x', hx, rfl, rfl, rfl⟩
    exact ⟨r, hr, hc, hk', rfl, hx⟩
  · rintro ⟨r, hr, hc, hk, rfl, hx⟩
    exact ⟨r, ⟨hr, hc⟩, k, hk, x, hx, rfl, rfl, rfl⟩

/-- C207: cutting about extrema.  Before the bands are computed: AttributeError.  An unknown kind: KeyError.  Two selected extrema closer together than the
width of a band: ValueError, whatever the epoch.  Otherwise an epoch in the band of an extremum gets "N-Min" or "N-Max" of that extremum, an
epoch in no band nothing. -/
theorem C207_cut (cyc : Int → Bool) (kinds : Option (List String)) (table : List Row) (t : Int) :
    cutBands none kinds cyc table t = .error .attributeError ∧
    ∀ (dl dr : Int), (dl + dr < 0 → cutBands (some (dl, dr)) kinds cyc table t = .error .valueError) ∧
      (0 < dl + dr → ∀ ks, kinds.getD ["Min", "Max"] = ks →
        ((∃ k ∈ ks, k ≠ "Min" ∧ k ≠ "Max") → cutBands (some (dl, dr)) kinds cyc table t = .error .keyError) ∧
        ((∀ k ∈ ks, k = "Min" ∨ k = "Max") →
          (¬ (selected cyc ks table).Pairwise (Apart (dl + dr)) → cutBands (some (dl, dr)) kinds cyc table t = .error .valueError) ∧
          ((selected cyc ks table).Pairwise (Apart (dl + dr)) →
            (∀ e ∈ selected cyc ks table, e.2.2 - dl < t → t ≤ e.2.2 + dr →
              cutBands (some (dl, dr)) kinds cyc table t = .ok (some (toString e.1 ++ "-" ++ e.2.1))) ∧
            ((∀ e ∈ selected cyc ks table, ¬ (e.2.2 - dl < t ∧ t ≤ e.2.2 + dr)) →
              cutBands (some (dl, dr)) kinds cyc table t = .ok none)))) := by
  refine ⟨rfl, fun dl dr => ⟨fun h => ?_, fun h ks hks => ⟨?_, ?_⟩⟩⟩
  · simp only [cutBands, if_pos h]
  · rintro ⟨k, hk, h1, h2⟩
    have hn : ¬ dl + dr < 0 := by omega
    have : ¬ (ks.all (fun k => decide (k = "Min" ∨ k = "Max")) = true) := by
      intro ha
      rw [List.all_eq_true] at ha
      have := of_decide_eq_true (ha k hk)
      rcases this with e | e
      · exact h1 e
      · exact h2 e
    simp only [cutBands, hks, if_neg hn]
    rw [if_pos this]
  · intro hall
    have hn : ¬ dl + dr < 0 := by omega
    have ha : ks.all (fun k => decide (k = "Min" ∨ k = "Max")) = true := by
      rw [List.all_eq_true]
      exact fun k hk => decide_eq_true (hall k hk)
    obtain ⟨S, hS⟩ : ∃ S, S = selected cyc ks table := ⟨_, rfl⟩
    rw [← hS]
    obtain ⟨iv, hiv⟩ : ∃ iv : List Ivl, iv = S.map (fun e => (⟨e.2.2 - dl, e.2.2 + dr⟩ : Ivl)) := ⟨_, rfl⟩
    have hdef : cutBands (some (dl, dr)) kinds cyc table t = (match cutBy iv t with
      | .error e => .error e
      | .ok none => .ok none
      | .ok (some i) => .ok ((S.find? (fun e => decide ((⟨e.2.2 - dl, e.2.2 + dr⟩ : Ivl) = i))).map bandName)) := by
      simp only [cutBands, hks, if_neg hn]
      rw [if_neg (not_not_intro ha), ← hS, ← hiv]
      rfl
    have hpw : iv.Pairwise (fun a b => ¬ Overlap a b) ↔ S.Pairwise (Apart (dl + dr)) := by
      rw [hiv, List.pairwise_map]
      constructor
      · refine List.Pairwise.imp ?_
        intro a b hab
        rw [overlap_iff dl dr _ _ h] at hab
        unfold Apart
        omega
      · refine List.Pairwise.imp ?_
        intro a b hab
        rw [overlap_iff dl dr _ _ h]
        unfold Apart at hab
        omega
    refine ⟨fun hno => ?_, fun hyes => ?_⟩
    · rw [hdef]
      have : cutBy iv t = .error .valueError := by
        unfold cutBy
        rw [if_neg]
        rintro ⟨_, h2⟩
        exact hno (hpw.mp h2)
      rw [this]
    · have hp := hpw.mpr hyes
      have hnd : iv.Nodup := by
        rw [List.Nodup]
        refine List.Pairwise.imp_of_mem ?_ hp
        intro a b ha hb hab he
        subst he
        rw [hiv] at ha
        obtain ⟨e, _, rfl⟩ := List.mem_map.mp ha
        exact hab ((overlap_iff dl dr _ _ h).mpr (by omega))
      have hcut : cutBy iv t = .ok (iv.find? (fun i => decide (i.Mem t))) := by
        unfold cutBy
        rw [if_pos ⟨hnd, hp⟩]
      rw [hdef, hcut]
      refine ⟨fun e he h1 h2 => ?_, fun hout => ?_⟩
      · have hm : (⟨e.2.2 - dl, e.2.2 + dr⟩ : Ivl) ∈ iv := by rw [hiv]; exact List.mem_map.mpr ⟨e, he, rfl⟩
        rw [find_of_pairwise hp hm ⟨h1, h2⟩]
        simp only
        cases hf : S.find? (fun e' => decide ((⟨e'.2.2 - dl, e'.2.2 + dr⟩ : Ivl) = ⟨e.2.2 - dl, e.2.2 + dr⟩)) with
        | none =>
          rw [List.find?_eq_none] at hf
          exact absurd (decide_eq_true rfl) (hf e he)
        | some e' =>
          have he' := List.mem_of_find?_eq_some hf
          have h3 := List.find?_some hf
          have h4 := of_decide_eq_true h3
          have h5 : e'.2.2 = e.2.2 := by
            have := congrArg Ivl.l h4
            simp only at this
            omega
          have : e' = e := by
            by_contra hne
            have hsym : ∀ a b, Apart (dl + dr) a b → Apart (dl + dr) b a := by
              intro a b hab
              unfold Apart at *
              omega
            have hs2 : Std.Symm (Apart (dl + dr)) := ⟨hsym⟩
            have := hyes.forall he' he hne
            unfold Apart at this
            omega
          rw [this]
          rfl
      · rw [List.find?_eq_none.mpr]
        intro i hi hm
        rw [hiv] at hi
        obtain ⟨e, he, rfl⟩ := List.mem_map.mp hi
        have hm' : (⟨e.2.2 - dl, e.2.2 + dr⟩ : Ivl).Mem t := @of_decide_eq_true _ (Classical.propDecidable _) hm
        exact hout e he hm'

/-! ### The shipped table -/

/-- Regular, as a check on day numbers -/
def regB : List (Int × Int × Int) → Bool
  | [] => true
  | [a] => a.2.1 < a.2.2
  | a :: b :: l => b.1 = a.1 + 1 && a.2.1 < a.2.2 && a.2.2 < b.2.1 && regB (b :: l)

theorem regB_regular (today : Int) : ∀ l : List (Int × Int × Int), regB l = true →
    Regular today (l.map (fun r => ⟨r.1, some (r.2.1 * dayNs), some (r.2.2 * dayNs)⟩))
  | [], _ => trivial
  | [a], h => by
    simp only [regB, decide_eq_true_eq] at h
    refine ⟨_, rfl, ?_⟩
    show a.2.1 * dayNs < a.2.2 * dayNs
    unfold dayNs
    omega
  | a :: b :: l, h => by
    simp only [regB, Bool.and_eq_true, decide_eq_true_eq] at h
    obtain ⟨⟨⟨h1, h2⟩, h3⟩, h4⟩ := h
    refine ⟨h1, ⟨_, _, _, rfl, rfl, rfl, ?_, ?_⟩, regB_regular today (b :: l) h4⟩
    · unfold dayNs; omega
    · unfold dayNs; omega

theorem ssn_regular (today : Int) : Regular today ssnTable := regB_regular today ssnDays (by decide +kernel)

theorem lastEnd_append (today : Int) (a : Row) : ∀ l : List Row, lastEnd today (l ++ [a]) = lastEnd today [a]
  | [] => rfl
  | [_] => rfl
  | _ :: c :: l => lastEnd_append today a (c :: l)

/-- C207: the shipped table of cycles 1 to 25.  For every date of the call the intervals of the 25 cycles can be computed; an epoch lies in a cycle
exactly if it is after 1755-02-01 (day -78496) and not after the end: 2036-11-29 (day 24439; six times 365 days after the maximum the table gives for
cycle 25, 2030-12-01), or, from 2030-12-02 on, the date of the call.  It lies in at most one cycle, and in exactly one edge of its cycle. -/
theorem C207_cycles (today : Int) : ∃ cs, intervals ssnTable today = .ok cs ∧ cs.length = 25 ∧
    (∀ t, (∃ c ∈ cs, c.cycle.Mem t) ↔ -78496 * dayNs < t ∧ t ≤ if 22249 * dayNs < today then today else 24439 * dayNs) ∧
    cs.Pairwise (fun c d => ∀ t, ¬ (c.cycle.Mem t ∧ d.cycle.Mem t)) ∧
    (∀ c ∈ cs, ∃ f, c.fall = some f ∧ ∀ t, (c.cycle.Mem t ↔ (c.rise.Mem t ∨ f.Mem t)) ∧ ¬ (c.rise.Mem t ∧ f.Mem t)) := by
  obtain ⟨cs, h1, h2, h3, h4, h5⟩ := C65_tiling ssnTable today (-78496 * dayNs) (ssn_regular today) (by
    have : ssnDays.head? = some (1, -78496, firstOf 1761 6) := by decide +kernel
    unfold ssnTable
    rw [List.head?_map, this]
    rfl)
  refine ⟨cs, h1, by rw [h2]; decide +kernel, ?_, h4, h5⟩
  intro t
  rw [h3 t]
  have : lastEnd today ssnTable = if 22249 * dayNs < today then today else 24439 * dayNs := by
    have hd : ssnDays = ssnDays.dropLast ++ [((25 : Int), (18231 : Int), (22249 : Int))] := by decide +kernel
    unfold ssnTable
    rw [hd, List.map_append, List.map_singleton, lastEnd_append]
    rfl
  rw [this]

/-- the selected extrema of the shipped table, as day numbers -/
def daySel (kinds : List String) : List (Int × String × Int) :=
  ssnDays.flatMap (fun r => kinds.filterMap (fun k => (if k = "Min" then some r.2.1 else some r.2.2).map (fun x => (r.1, k, x))))

theorem selected_days (kinds : List String) :
    selected (fun _ => true) kinds ssnTable = (daySel kinds).map (fun e => (e.1, e.2.1, e.2.2 * dayNs)) := by
  unfold selected daySel ssnTable
  rw [List.filter_eq_self.mpr (fun _ _ => rfl), List.flatMap_map, List.map_flatMap]
  refine congrArg (fun f => List.flatMap f ssnDays) (funext fun r => ?_)
  rw [List.map_filterMap]
  refine congrArg (fun f => List.filterMap f kinds) (funext fun k => ?_)
  by_cases h : k = "Min"
  · simp [h]
  · simp [h]

/-- the days of the extrema selected are in increasing order with steps of at least `g` -/
def gapsB (g : Int) : List (Int × String × Int) → Bool
  | [] => true
  | [_] => true
  | a :: b :: l => a.2.2 + g ≤ b.2.2 && gapsB g (b :: l)

theorem gaps_mem (g : Int) (hg : 0 < g) : ∀ (a : Int × String × Int) (l : List (Int × String × Int)), gapsB g (a :: l) = true →
    ∀ x ∈ l, a.2.2 + g ≤ x.2.2
  | _, [], _ => by simp
  | a, b :: l, h => by
    simp only [gapsB, Bool.and_eq_true, decide_eq_true_eq] at h
    intro x hx
    rcases List.mem_cons.mp hx with rfl | hx
    · exact h.1
    · have := gaps_mem g hg b l h.2 x hx
      omega

theorem gaps_pairwise (g : Int) (hg : 0 < g) : ∀ l : List (Int × String × Int), gapsB g l = true →
    l.Pairwise (fun a b => a.2.2 + g ≤ b.2.2)
  | [], _ => List.Pairwise.nil
  | a :: l, h => by
    rw [List.pairwise_cons]
    refine ⟨gaps_mem g hg a l h, gaps_pairwise g hg l ?_⟩
    cases l with
    | nil => rfl
    | cons b l => simp only [gapsB, Bool.and_eq_true] at h; exact h.2

theorem apart_days (g w : Int) (hg : 0 < g) (kinds : List String) (h : gapsB g (daySel kinds) = true) (hw : w ≤ g * dayNs) :
    (selected (fun _ => true) kinds ssnTable).Pairwise (Apart w) := by
  rw [selected_days, List.pairwise_map]
  refine (gaps_pairwise g hg _ h).imp ?_
  intro a b hab
  right
  unfold dayNs at *
  simp only
  omega

theorem apart_not (g w : Int) (kinds : List String) (e f : Int × String × Int) (hef : e ≠ f) (he : e ∈ daySel kinds) (hf : f ∈ daySel kinds)
    (hd : f.2.2 - e.2.2 = g) (hg : 0 < g) (hw : g * dayNs < w) : ¬ (selected (fun _ => true) kinds ssnTable).Pairwise (Apart w) := by
  intro h
  rw [selected_days, List.pairwise_map] at h
  have hs : Std.Symm (fun a b : Int × String × Int => Apart w (a.1, a.2.1, a.2.2 * dayNs) (b.1, b.2.1, b.2.2 * dayNs)) := ⟨by
    intro a b hab
    unfold Apart at *
    omega⟩
  have := h.forall he hf hef
  unfold Apart dayNs at this
  unfold dayNs at hw
  simp only at this
  omega

/-- C207: the bands about the extrema of the shipped table, all cycles.  All extrema can be cut exactly if a band is at most 1065 days wide in
total, minima alone up to 3287 days, maxima alone up to 2677 days; wider bands raise ValueError for every epoch. -/
theorem C207_shipped (dl dr t : Int) (h : 0 < dl + dr) :
    ((∃ n, cutBands (some (dl, dr)) none (fun _ => true) ssnTable t = .ok n) ↔ dl + dr ≤ 1065 * dayNs) ∧
    ((∃ n, cutBands (some (dl, dr)) (some ["Min"]) (fun _ => true) ssnTable t = .ok n) ↔ dl + dr ≤ 3287 * dayNs) ∧
    ((∃ n, cutBands (some (dl, dr)) (some ["Max"]) (fun _ => true) ssnTable t = .ok n) ↔ dl + dr ≤ 2677 * dayNs) := by
  have key : ∀ (kinds : Option (List String)) (ks : List String) (g : Int), kinds.getD ["Min", "Max"] = ks → (∀ k ∈ ks, k = "Min" ∨ k = "Max") →
      0 < g → gapsB g (daySel ks) = true → (∃ e f, e ≠ f ∧ e ∈ daySel ks ∧ f ∈ daySel ks ∧ f.2.2 - e.2.2 = g) →
      ((∃ n, cutBands (some (dl, dr)) kinds (fun _ => true) ssnTable t = .ok n) ↔ dl + dr ≤ g * dayNs) := by
    intro kinds ks g hks hall hg hgap hex
    have hc := (((C207_cut (fun _ => true) kinds ssnTable t).2 dl dr).2 h ks hks).2 hall
    constructor
    · rintro ⟨n, hn⟩
      by_contra hlt
      obtain ⟨e, f, hef, he, hf, hd⟩ := hex
      rw [hc.1 (apart_not g _ ks e f hef he hf hd hg (by omega))] at hn
      exact absurd hn (by simp)
    · intro hle
      have := hc.2 (apart_days g _ hg ks hgap hle)
      by_cases hin : ∃ e ∈ selected (fun _ => true) ks ssnTable, e.2.2 - dl < t ∧ t ≤ e.2.2 + dr
      · obtain ⟨e, he, h1, h2⟩ := hin
        exact ⟨_, this.1 e he h1 h2⟩
      · exact ⟨_, this.2 (fun e he hx => hin ⟨e, he, hx⟩)⟩
  refine ⟨key none _ 1065 rfl (by simp) (by norm_num) (by decide +kernel) ?_, key (some ["Min"]) _ 3287 rfl (by simp) (by norm_num) (by decide +kernel) ?_,
    key (some ["Max"]) _ 2677 rfl (by simp) (by norm_num) (by decide +kernel) ?_⟩
  · exact ⟨(3, "Min", -71071), (3, "Max", -70006), by decide, by decide +kernel⟩
  · exact ⟨(2, "Min", -74358), (3, "Min", -71071), by decide, by decide +kernel⟩
  · exact ⟨(7, "Max", -51195), (8, "Max", -48518), by decide, by decide +kernel⟩

/-- C207: the dates of the 25 minima and maxima in turn, as days since 1970-01-01 (computed from the shipped file with Python's calendar). -/
def extremaDays : List Int := [
  -78496, -76184, -74358, -73170, -71071, -70006, -67691, -66443, -62731, -60234, -58258, -56127, -53571, -51195,
  -49734, -48518, -46205, -44529, -41669, -40146, -37561, -36312, -33268, -31442, -29160, -27758, -24837, -23345,
  -20638, -19146, -16955, -15250, -13271, -11963, -9466, -8281, -5754, -4324, -1918, -426, 2251, 3621,
  6087, 7244, 9709, 11627, 14214, 16161, 18231, 22249]

/-- C207: cycles 1 to 25, a minimum and a maximum each, at these dates. -/
theorem C207_dates :
    (selected (fun _ => true) ["Min", "Max"] ssnTable).map (fun e => e.2.2) = extremaDays.map (fun d => d * dayNs) ∧
    (selected (fun _ => true) ["Min", "Max"] ssnTable).map (fun e => (e.1, e.2.1)) =
      (List.range 25).flatMap (fun k => [((k : Int) + 1, "Min"), ((k : Int) + 1, "Max")]) := by
  rw [selected_days, List.map_map, List.map_map]
  constructor
  · have h : (daySel ["Min", "Max"]).map (fun e => e.2.2) = extremaDays := by decide +kernel
    rw [← h, List.map_map]
    rfl
  · have h : (daySel ["Min", "Max"]).map (fun e => (e.1, e.2.1)) =
        (List.range 25).flatMap (fun k => [((k : Int) + 1, "Min"), ((k : Int) + 1, "Max")]) := by decide +kernel
    rw [← h]
    rfl

/-- C207: with the default half-width of 365 days every extremum of the table has its own band: a time within a year of it (365 days) is named after
it, a time further than that from every extremum has no name. -/
theorem C207_default (t : Int) (e : Int × String × Int) :
    (e ∈ selected (fun _ => true) ["Min", "Max"] ssnTable → e.2.2 - 365 * dayNs < t → t ≤ e.2.2 + 365 * dayNs →
      cutBands (some (365 * dayNs, 365 * dayNs)) none (fun _ => true) ssnTable t = .ok (some (toString e.1 ++ "-" ++ e.2.1))) ∧
    ((∀ e ∈ selected (fun _ => true) ["Min", "Max"] ssnTable, ¬ (e.2.2 - 365 * dayNs < t ∧ t ≤ e.2.2 + 365 * dayNs)) →
      cutBands (some (365 * dayNs, 365 * dayNs)) none (fun _ => true) ssnTable t = .ok none) := by
  have hc := ((((C207_cut (fun _ => true) none ssnTable t).2 (365 * dayNs) (365 * dayNs)).2 (by unfold dayNs; norm_num) _ rfl).2 (by simp)).2
    (apart_days 1065 _ (by norm_num) _ (by decide +kernel) (by unfold dayNs; norm_num))
  exact ⟨hc.1 e, hc.2⟩

/-- non-vacuity: the minimum of cycle 24, 2008-12-01, is a selected extremum -/
example : ((24 : Int), "Min", 14214 * dayNs) ∈ selected (fun _ => true) ["Min", "Max"] ssnTable := by
  rw [mem_selected]
  refine ⟨⟨24, some (14214 * dayNs), some (16161 * dayNs)⟩, ?_, rfl, by simp, rfl, rfl⟩
  unfold ssnTable
  refine List.mem_map.mpr ⟨(24, 14214, 16161), by decide +kernel, rfl⟩

end
end Act
end SW
