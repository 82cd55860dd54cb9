import Verif.Products
import Verif.Props.SsnTable
import Verif.Props.Extrema

/-!
# C210 (data products), C211 (labels of every sunspot datum), C120 (rejected times)
-/

namespace SW
namespace Act
open Classical

/-! ### C210: keys -/

/-- the keys documented for each source: sidc.py:159-170 and lisird.py:50-58 -/
def documented : Cache.Source → List String
  | .sidc => ["d", "m", "m13", "y", "hd", "hm", "hm13"]
  | .lisird => ["Lalpha", "CaK", "f107-noaa", "f107-pen", "MgII"]

theorem lookup_isSome {β} (k : String) : ∀ l : List (String × β), (∃ v, l.lookup k = some v) ↔ k ∈ l.map Prod.fst
  | [] => by simp
  | (a, b) :: l => by
    by_cases h : k = a
    · subst h
      simp [List.lookup_cons]
    · have : (k == a) = false := by simpa using h
      rw [List.lookup_cons, this]
      simp only [List.map_cons, List.mem_cons, h, false_or]
      exact lookup_isSome k l

theorem lookup_mem' {β} (k : String) (v : β) : ∀ l : List (String × β), l.lookup k = some v → (k, v) ∈ l
  | [], h => by simp at h
  | (a, b) :: l, h => by
    by_cases e : k = a
    · subst e
      simp [List.lookup_cons] at h
      simp [h]
    · have : (k == a) = false := by simpa using e
      rw [List.lookup_cons, this] at h
      exact List.mem_cons_of_mem _ (lookup_mem' k v l h)

/-- C210: a key is accepted exactly if it is one of the seven sunspot series or of the five LISIRD series; otherwise NotImplementedError.
Different keys of a source never share an address. -/
theorem C210_keys (src : Cache.Source) (key : String) :
    ((∃ u, setKey src key = .ok u) ↔
      key ∈ match src with
        | .sidc => ["d", "m", "m13", "y", "hd", "hm", "hm13"]
        | .lisird => ["Lalpha", "CaK", "f107-noaa", "f107-penticton", "MgII"]) ∧
    (∀ e, setKey src key = .error e → e = .notImplemented) ∧
    (∀ key' u, setKey src key = .ok u → setKey src key' = .ok u → key = key') := by
  have hs : ∀ k, (∃ u, setKey src k = .ok u) ↔ k ∈ (transUrl src).map Prod.fst := by
    intro k
    rw [← lookup_isSome]
    unfold setKey
    cases (transUrl src).lookup k <;> simp
  refine ⟨?_, ?_, ?_⟩
  · rw [hs]
    cases src
    · simp only [transUrl, List.map_cons, List.map_nil, List.mem_cons, List.not_mem_nil, or_false]
      tauto
    · simp only [transUrl, List.map_cons, List.map_nil, List.mem_cons, List.not_mem_nil, or_false]
  · intro e h
    unfold setKey at h
    cases hl : (transUrl src).lookup key with
    | none => rw [hl] at h; cases h; rfl
    | some v => rw [hl] at h; cases h
  · intro key' u h h'
    unfold setKey at h h'
    cases hl : (transUrl src).lookup key with
    | none => rw [hl] at h; cases h
    | some v =>
      cases hl' : (transUrl src).lookup key' with
      | none => rw [hl'] at h'; cases h'
      | some v' =>
        rw [hl] at h
        rw [hl'] at h'
        simp only [Except.ok.injEq] at h h'
        have hv : v = v' := by
          have := h.trans h'.symm
          have := congrArg String.toList this
          rw [String.toList_append, String.toList_append] at this
          exact String.ext (List.append_cancel_left this)
        subst hv
        have m1 := lookup_mem' _ _ _ hl
        have m2 := lookup_mem' _ _ _ hl'
        have hnd : ((transUrl src).map Prod.snd).Nodup := by cases src <;> decide
        have := List.inj_on_of_nodup_map hnd m1 m2 rfl
        exact (Prod.mk.inj this).1

/-- C210 (violated: documented keys work): all documented keys are accepted except "f107-pen". -/
theorem C210_documented (src : Cache.Source) (key : String) (h : key ∈ documented src) :
    (∃ u, setKey src key = .ok u) ↔ key ≠ "f107-pen" := by
  rw [(C210_keys src key).1]
  cases src
  · simp only [documented, List.mem_cons, List.not_mem_nil, or_false] at h ⊢
    rcases h with rfl | rfl | rfl | rfl | rfl <;> decide
  · simp only [documented, List.mem_cons, List.not_mem_nil, or_false] at h ⊢
    rcases h with rfl | rfl | rfl | rfl | rfl | rfl | rfl <;> decide

/-! ### C210: downloads -/

/-- the name of the standard error belonging to a deviation column -/
def errName : String → Option String
  | "std" => some "std_error"
  | "total_std" => some "totalstd_error"
  | "north_std" => some "northstd_error"
  | "south_std" => some "southstd_error"
  | _ => none

/-- the count column belonging to a deviation column -/
def countName : String → String
  | "std" => "n_obs"
  | "total_std" => "n_total"
  | "north_std" => "n_north"
  | _ => "n_south"

theorem lookup_zip (k : String) (c : List Fl) : ∀ (names : List String) (raw : List (List Fl)), names.Nodup →
    (∃ i : Nat, names[i]? = some k ∧ raw[i]? = some c) → (names.zip raw).lookup k = some c
  | [], _, _, ⟨i, h, _⟩ => by simp at h
  | _ :: _, [], _, ⟨i, _, h⟩ => by simp at h
  | n :: ns, r :: rs, hn, ⟨i, h1, h2⟩ => by
    rw [List.nodup_cons] at hn
    cases i with
    | zero =>
      simp only [List.getElem?_cons_zero, Option.some.injEq] at h1 h2
      subst h1 h2
      simp [List.lookup_cons]
    | succ i =>
      simp only [List.getElem?_cons_succ] at h1 h2
      have hk : k ≠ n := by
        rintro rfl
        exact hn.1 (List.mem_of_getElem? h1)
      have : (k == n) = false := by simpa using hk
      rw [List.zip_cons_cons, List.lookup_cons, this]
      exact lookup_zip k c ns rs hn.2 ⟨i, h1, h2⟩

theorem lookup_map (g : List Fl → List Fl) (k : String) : ∀ l : List (String × List Fl),
    (l.map (fun c => (c.1, g c.2))).lookup k = (l.lookup k).map g
  | [] => rfl
  | (a, b) :: l => by
    by_cases h : k = a
    · subst h; simp [List.lookup_cons]
    · have : (k == a) = false := by simpa using h
      rw [List.map_cons, List.lookup_cons, List.lookup_cons, this]
      exact lookup_map g k l

theorem lookup_append' (k : String) : ∀ l m : List (String × List Fl), (l ++ m).lookup k = (l.lookup k).or (m.lookup k)
  | [], m => by simp
  | (a, b) :: l, m => by
    by_cases h : k = a
    · subst h; simp [List.lookup_cons]
    · have : (k == a) = false := by simpa using h
      rw [List.cons_append, List.lookup_cons, List.lookup_cons, this]
      exact lookup_append' k l m

/-- C210: a download with one column per name keeps every value under its name, except that the marker -1 becomes a missing value in every
column; the file is refused (ValueError) exactly if the number of columns differs. -/
theorem C210_download (key : String) (names : List String) (hk : sidcCols.lookup key = some names) (raw : List (List Fl)) :
    (raw.length ≠ names.length → sidcDownload key raw = .error .valueError) ∧
    (raw.length = names.length → ∃ f, sidcDownload key raw = .ok f ∧
      (∀ (i : Nat) (name : String) (col : List Fl), names[i]? = some name → raw[i]? = some col → f.lookup name = some (col.map convertNan)) ∧
      (∀ (i j : Nat) (name e : String) (std cnt : List Fl), names[i]? = some name → errName name = some e → raw[i]? = some std → names[j]? = some (countName name) →
        raw[j]? = some cnt → f.lookup e = some (List.zipWith stdError std cnt)) ∧
      (∀ col ∈ f.map Prod.snd, Fl.fin (-1) ∉ col)) := by
  have hall : ∀ p ∈ sidcCols, p.2.Nodup ∧ (∀ e ∈ p.2.filterMap errName, e ∉ p.2) := by decide +kernel
  have hm := lookup_mem' _ _ _ hk
  obtain ⟨hnd, hne⟩ := hall _ hm
  simp only at hnd hne
  refine ⟨fun h => by unfold sidcDownload; rw [hk]; simp [h], fun h => ?_⟩
  refine ⟨_, by unfold sidcDownload; rw [hk]; simp only; rw [if_neg (by simpa using h)], ?_, ?_, ?_⟩
  · intro i name col h1 h2
    rw [lookup_map (fun c => c.map convertNan), lookup_append', lookup_zip name col names raw hnd ⟨i, h1, h2⟩]
    rfl
  · intro i j name e std cnt h1 he h2 h3 h4
    have hstd := lookup_zip name std names raw hnd ⟨i, h1, h2⟩
    have hcnt := lookup_zip _ cnt names raw hnd ⟨j, h3, h4⟩
    have hnot : (names.zip raw).lookup e = none := by
      cases hl : (names.zip raw).lookup e with
      | none => rfl
      | some v =>
        exfalso
        have := lookup_mem' _ _ _ hl
        refine hne e (List.mem_filterMap.mpr ⟨name, List.mem_of_getElem? h1, he⟩) ((List.of_mem_zip this).1)
    rw [lookup_map (fun c => c.map convertNan), lookup_append', hnot, Option.none_or]
    have hz : (errCols key (names.zip raw)).lookup e = some (errCol (names.zip raw) name (countName name)) := by
      have hin : name ∈ names := List.mem_of_getElem? h1
      unfold errName at he
      simp only [sidcCols, List.mem_cons, List.not_mem_nil, or_false, Prod.mk.injEq] at hm
      split at he
      · injection he with he
        subst he
        rcases hm with ⟨rfl, rfl⟩ | ⟨rfl, rfl⟩ | ⟨rfl, rfl⟩ | ⟨rfl, rfl⟩ | ⟨rfl, rfl⟩ | ⟨rfl, rfl⟩ | ⟨rfl, rfl⟩
        · rfl
        · rfl
        · rfl
        · rfl
        · exact absurd hin (by decide)
        · exact absurd hin (by decide)
        · exact absurd hin (by decide)
      · injection he with he
        subst he
        rcases hm with ⟨rfl, rfl⟩ | ⟨rfl, rfl⟩ | ⟨rfl, rfl⟩ | ⟨rfl, rfl⟩ | ⟨rfl, rfl⟩ | ⟨rfl, rfl⟩ | ⟨rfl, rfl⟩
        · exact absurd hin (by decide)
        · exact absurd hin (by decide)
        · exact absurd hin (by decide)
        · exact absurd hin (by decide)
        · rfl
        · rfl
        · rfl
      · injection he with he
        subst he
        rcases hm with ⟨rfl, rfl⟩ | ⟨rfl, rfl⟩ | ⟨rfl, rfl⟩ | ⟨rfl, rfl⟩ | ⟨rfl, rfl⟩ | ⟨rfl, rfl⟩ | ⟨rfl, rfl⟩
        · exact absurd hin (by decide)
        · exact absurd hin (by decide)
        · exact absurd hin (by decide)
        · exact absurd hin (by decide)
        · rfl
        · rfl
        · rfl
      · injection he with he
        subst he
        rcases hm with ⟨rfl, rfl⟩ | ⟨rfl, rfl⟩ | ⟨rfl, rfl⟩ | ⟨rfl, rfl⟩ | ⟨rfl, rfl⟩ | ⟨rfl, rfl⟩ | ⟨rfl, rfl⟩
        · exact absurd hin (by decide)
        · exact absurd hin (by decide)
        · exact absurd hin (by decide)
        · exact absurd hin (by decide)
        · rfl
        · rfl
        · rfl
      · cases he
    rw [hz]
    simp only [Option.map_some, errCol, hstd, hcnt, Option.getD_some, Option.some.injEq]
    rw [List.map_zipWith]
    rfl
  · intro col hc
    simp only [List.map_map, List.mem_map, Function.comp] at hc
    obtain ⟨c, _, rfl⟩ := hc
    intro hmem
    obtain ⟨x, _, hx⟩ := List.mem_map.mp hmem
    unfold convertNan at hx
    split_ifs at hx with h1
    exact h1 hx

/-! ### C210: construction -/

/-- C210 (violated for the hemispheric series): with the table downloaded for its key, a total series can be constructed exactly if its data can
be loaded; a hemispheric series can never be constructed: once the data are loaded (and the cache renewed) it raises KeyError. -/
theorem C210_construct (parent : List Nat) (key : String) (today : Nat) (net : Bool) (raw : List (List Fl)) (f : List (String × List Fl))
    (hf : sidcDownload key raw = .ok f) (d : Cache.Disk) :
    (key ∈ ["d", "m", "m13", "y"] →
      ((sidcNew parent key today net f d).2 = .ok () ↔ ∃ c, (Cache.session parent .sidc today net d).2 = .ok c)) ∧
    (key ∈ ["hd", "hm", "hm13"] → (sidcNew parent key today net f d).2 ≠ .ok () ∧
      ∀ c, (Cache.session parent .sidc today net d).2 = .ok c →
        sidcNew parent key today net f d = ((Cache.session parent .sidc today net d).1, .error .keyError)) := by
  have hlk : ∀ names, sidcCols.lookup key = some names → raw.length = names.length := by
    intro names hk
    by_contra hne
    rw [((C210_download key names hk raw).1 hne)] at hf
    cases hf
  have hok : ∀ k ∈ ["d", "m", "m13", "y", "hd", "hm", "hm13"], ∃ u, setKey .sidc k = .ok u := by
    intro k hk
    exact (C210_keys .sidc k).1.mpr hk
  obtain ⟨S, hS⟩ : ∃ S, S = Cache.session parent .sidc today net d := ⟨_, rfl⟩
  constructor
  · intro h
    obtain ⟨u, hu⟩ := hok key (by simp only [List.mem_cons, List.not_mem_nil, or_false] at h ⊢; tauto)
    have hs : ∃ c, f.lookup "ssn" = some c := by
      have : ∃ names, sidcCols.lookup key = some names ∧ "ssn" ∈ names := by
        simp only [List.mem_cons, List.not_mem_nil, or_false] at h
        rcases h with rfl | rfl | rfl | rfl <;> exact ⟨_, rfl, by decide⟩
      obtain ⟨names, hk, hin⟩ := this
      obtain ⟨f', hf', hget, _⟩ := (C210_download key names hk raw).2 (hlk names hk)
      rw [hf] at hf'
      injection hf' with hf'
      subst hf'
      obtain ⟨i, hi, he⟩ := List.getElem_of_mem hin
      have hr : i < raw.length := by rw [hlk names hk]; exact hi
      exact ⟨_, hget i "ssn" raw[i] (by rw [List.getElem?_eq_getElem hi, he]) (List.getElem?_eq_getElem hr)⟩
    obtain ⟨c, hc⟩ := hs
    unfold sidcNew
    rw [hu, ← hS]
    simp only
    obtain ⟨d', r⟩ := S
    cases r with
    | error e => simp
    | ok v => simp [hc]
  · intro h
    obtain ⟨u, hu⟩ := hok key (by simp only [List.mem_cons, List.not_mem_nil, or_false] at h ⊢; tauto)
    have hs : f.lookup "ssn" = none := by
      have : ∃ names, sidcCols.lookup key = some names ∧ "ssn" ∉ names ∧ ∀ f, "ssn" ∉ (errCols key f).map Prod.fst := by
        simp only [List.mem_cons, List.not_mem_nil, or_false] at h
        rcases h with rfl | rfl | rfl <;> exact ⟨_, rfl, by decide, fun f => by simp [errCols]⟩
      obtain ⟨names, hk, hnot, herr⟩ := this
      unfold sidcDownload at hf
      rw [hk] at hf
      simp only at hf
      rw [if_neg (by simpa using hlk names hk)] at hf
      injection hf with hf
      rw [← hf, lookup_map (fun c => c.map convertNan), lookup_append']
      have h1 : (names.zip raw).lookup "ssn" = none := by
        cases hl : (names.zip raw).lookup "ssn" with
        | none => rfl
        | some v => exact absurd (List.of_mem_zip (lookup_mem' _ _ _ hl)).1 hnot
      have h2 : (errCols key (names.zip raw)).lookup "ssn" = none := by
        cases hl : (errCols key (names.zip raw)).lookup "ssn" with
        | none => rfl
        | some v => exact absurd ((lookup_isSome _ _).mp ⟨v, hl⟩) (herr _)
      rw [h1, h2]
      rfl
    unfold sidcNew
    rw [hu, ← hS]
    simp only
    obtain ⟨d', r⟩ := S
    cases r with
    | error e => simp
    | ok v => simp [hs]

/-- C210 (violated): the plot of the sunspot number can never be made: its constructor asks for a label class `DateTime` in a module which has no
such class. -/
theorem C210_plot : ssnPlotNew = .error .attributeError := by
  have h : "DateTime" ∉ specialNames := by decide +kernel
  unfold ssnPlotNew plotAsks
  show (do (if "DateTime" ∈ specialNames then Except.ok () else Except.error PyErr.attributeError); _) = _
  rw [if_neg h]
  rfl

/-- days of a month in the Gregorian calendar -/
def monthDays (y m : Int) : Int :=
  if m = 2 then (if y % 4 = 0 ∧ (y % 100 ≠ 0 ∨ y % 400 = 0) then 29 else 28)
  else if m = 4 ∨ m = 6 ∨ m = 9 ∨ m = 11 then 30 else 31

/-- C210: data are dated by the Gregorian calendar for every year (day 0 is 1970-01-01): a daily datum at its day, a monthly one at the first day of
its month. -/
theorem C210_dates (y m d : Int) (h1 : 1 ≤ m) (h2 : m ≤ 12) (k : String) (hk : k = "d" ∨ k = "hd") (k' : String)
    (hk' : k' = "m" ∨ k' = "m13" ∨ k' = "hm" ∨ k' = "hm13") :
    sidcDay k 1970 1 1 = 0 ∧ sidcDay k y m (d + 1) = sidcDay k y m d + 1 ∧
    (if m = 12 then sidcDay k (y + 1) 1 1 else sidcDay k y (m + 1) 1) = sidcDay k y m (monthDays y m) + 1 ∧
    sidcDay k' y m d = sidcDay k y m 1 := by
  have hd : ∀ y m d, sidcDay k y m d = firstOf y m + d - 1 := by
    intro y m d
    unfold sidcDay
    rw [if_pos hk]
  have hm : ∀ y m d, sidcDay k' y m d = firstOf y m := by
    intro y m d
    unfold sidcDay
    rw [if_neg (by rcases hk' with rfl | rfl | rfl | rfl <;> decide)]
  simp only [hd, hm]
  refine ⟨by decide, by omega, ?_, by omega⟩
  have : m = 1 ∨ m = 2 ∨ m = 3 ∨ m = 4 ∨ m = 5 ∨ m = 6 ∨ m = 7 ∨ m = 8 ∨ m = 9 ∨ m = 10 ∨ m = 11 ∨ m = 12 := by omega
  rcases this with rfl | rfl | rfl | rfl | rfl | rfl | rfl | rfl | rfl | rfl | rfl | rfl <;> simp [firstOf, monthDays] <;>
    (try split_ifs) <;> omega

/-! ### C120: rejected times -/

/-- C120: besides later duplicates exactly the three times known to be bad are dropped, and only from the Penticton series. -/
theorem C120_rejected (key : String) (l : List (Int × Fl)) :
    ((verifyEpoch key l).map Prod.fst).Nodup ∧ (verifyEpoch key l).Sublist l ∧
    (∀ t, t ∈ (verifyEpoch key l).map Prod.fst ↔ t ∈ l.map Prod.fst ∧
      ¬ (key = "f107-penticton" ∧ (t = 1061657971200 ∨ t = 1277073820800 ∨ t = 1568685597120))) ∧
    (∀ t, t ∈ (verifyEpoch key l).map Prod.fst → (verifyEpoch key l).find? (fun p => p.1 = t) = l.find? (fun p => p.1 = t)) := by
  obtain ⟨h1, h2, h3, h4⟩ := C120_unique_times l
  have hsub : (verifyEpoch key l).Sublist (dropLater l []) := List.filter_sublist
  have hbad : ∀ t, t ∉ badTimes key ↔ ¬ (key = "f107-penticton" ∧ (t = 1061657971200 ∨ t = 1277073820800 ∨ t = 1568685597120)) := by
    intro t
    unfold badTimes
    by_cases hk : key = "f107-penticton" <;> simp [hk]
  have hmem : ∀ t, t ∈ (verifyEpoch key l).map Prod.fst ↔ t ∈ l.map Prod.fst ∧ t ∉ badTimes key := by
    intro t
    unfold verifyEpoch
    simp only [List.mem_map, List.mem_filter, decide_eq_true_eq]
    constructor
    · rintro ⟨p, ⟨hp, hb⟩, rfl⟩
      exact ⟨⟨p, h2.subset hp, rfl⟩, hb⟩
    · rintro ⟨⟨p, hp, rfl⟩, hb⟩
      obtain ⟨q, hq, he⟩ := h4 p.1 ⟨p, hp, rfl⟩
      exact ⟨q, ⟨hq, by rw [he]; exact hb⟩, he⟩
  refine ⟨(hsub.map Prod.fst).nodup h1, hsub.trans h2, fun t => by rw [hmem, hbad], ?_⟩
  intro t ht
  rw [← h3 t]
  unfold verifyEpoch
  rw [List.find?_filter]
  congr 1
  funext p
  by_cases hp : p.1 = t
  · have := ((hmem t).mp ht).2
    subst hp
    simp [this]
  · simp [hp]

/-! ### C211: labels of every datum -/

theorem calcRow_min {table : List Row} {today : Int} {r : Row} {c : Cyc} (h : calcRow table today r = .ok c) : r.min = some c.cycle.l := by
  unfold calcRow at h
  simp only [bind, Except.bind, pure, Except.pure] at h
  split at h
  · cases h
  · split at h
    · cases h
    · split at h
      · cases h
      · rename_i v hv
        injection h with h
        subst h
        unfold mkIvl at hv
        split at hv
        · rename_i a b h1 h2
          split_ifs at hv
          injection hv with hv
          subst hv
          exact h1
        · cases hv

theorem calcRows_zip (table : List Row) (today : Int) : ∀ (l : List Row) (cs : List Cyc), calcRows table today l = .ok cs →
    List.Forall₂ (fun r c => r.min = some c.cycle.l) l cs
  | [], cs, h => by
    rw [calcRows] at h
    injection h with h
    subst h
    exact List.Forall₂.nil
  | r :: l, cs, h => by
    rw [calcRows] at h
    simp only [bind, Except.bind, pure, Except.pure] at h
    split at h
    · cases h
    · rename_i c hc
      split at h
      · cases h
      · rename_i cs' hcs'
        injection h with h
        subst h
        exact List.Forall₂.cons (calcRow_min hc) (calcRows_zip table today l cs' hcs')

/-- the cycle of an epoch, independently of the intervals: the last one whose minimum is before the epoch, if the epoch is not after the end
of the table -/
def IsCycle (table : List Row) (today t n : Int) : Prop :=
  t ≤ lastEnd today table ∧ (∃ r ∈ table, r.num = n ∧ ∃ m, r.min = some m ∧ m < t) ∧
  ∀ r ∈ table, ∀ m, r.min = some m → m < t → r.num ≤ n

theorem isCycle_unique {table : List Row} {today t n n' : Int} (h : IsCycle table today t n) (h' : IsCycle table today t n') : n = n' := by
  obtain ⟨_, ⟨r, hr, rfl, m, hm, hmt⟩, hmax⟩ := h
  obtain ⟨_, ⟨r', hr', rfl, m', hm', hmt'⟩, hmax'⟩ := h'
  have := hmax r' hr' m' hm' hmt'
  have := hmax' r hr m hm hmt
  omega

/-- C211: for every well-formed table each datum gets the number of the last cycle whose minimum is before it, and none before (or at) the first
minimum or after the end of the table. -/
theorem C211_cycle (table : List Row) (today m0 : Int) (h : Regular today table) (h0 : table.head?.bind Row.min = some m0) (t : Int) :
    ∃ o, cycleNumber table today t = .ok o ∧ (∀ n, o = some n ↔ IsCycle table today t n) ∧
      (o = none ↔ t ≤ m0 ∨ lastEnd today table < t) := by
  have hne : table ≠ [] := by intro he; subst he; simp at h0
  have hnums := regular_nums h
  obtain ⟨cs, hcs, hlen, hsp, hch⟩ := calc_suffix today table [] hne (by simpa using hnums) h m0 h0
  simp only [List.nil_append] at hcs
  have hiv : intervals table today = .ok cs := hcs
  have hz := calcRows_zip table today table cs hcs
  have hdis := chain_disjoint hsp hch
  have hmem := chain_mem (t := t) hsp hch
  have hcut := C65_cut table today m0 h h0 cs hiv t
  have hst : stacked (.names ["Cycle"]) cs = .ok (cs.map Cyc.cycle) := by
    unfold stacked
    simp only [List.all_cons, List.all_nil, List.mem_cons, true_or, decide_true, Bool.and_true, if_true, List.flatMap_cons,
      List.flatMap_nil, List.append_nil]
    rw [flatMap_cycle]
  have hspec : cutSpec (.names ["Cycle"]) cs t = cutBy (cs.map Cyc.cycle) t := by
    unfold cutSpec
    rw [hst]
    rfl
  unfold cycleNumber
  rw [hiv]
  simp only [bind, Except.bind, pure, Except.pure]
  by_cases ht : m0 < t ∧ t ≤ lastEnd today table
  · obtain ⟨c, hc, hct⟩ := hmem.mpr ht
    have hcb := hcut.1 c hc hct
    rw [hspec] at hcb
    rw [hcb]
    simp only [Option.bind_some]
    obtain ⟨i, hi, hic⟩ := List.getElem_of_mem hc
    have hi' : i < table.length := by rw [← hlen]; exact hi
    have hmi : ∀ j (hj : j < cs.length) (hj' : j < table.length), (table[j]).min = some (cs[j]).cycle.l := fun j hj hj' =>
      (List.forall₂_iff_get.mp hz).2 j hj' hj
    have hfind : (table.zip cs).find? (fun p => decide (p.2.cycle = c.cycle)) = some (table[i], cs[i]) := by
      rw [List.find?_eq_some_iff_getElem]
      refine ⟨by simp [hic], i, by simp [hi, hi'], by simp, ?_⟩
      intro j hj
      simp only [List.getElem_zip, Bool.not_eq_eq_eq_not, Bool.not_true, decide_eq_false_iff_not]
      have hjl : j < cs.length := by omega
      have := (List.pairwise_iff_getElem.mp hdis) j i hjl hi hj
      have hn := (hsp cs[j] (List.getElem_mem hjl)).ne
      intro he
      rw [hic, ← he] at this
      omega
    rw [hfind]
    refine ⟨_, rfl, ?_, ?_⟩
    · have hself : IsCycle table today t (table[i]).num := by
        refine ⟨ht.2, ⟨_, List.getElem_mem hi', rfl, _, hmi i hi hi', by rw [hic]; exact hct.1⟩, ?_⟩
        intro r hr m hm hmt
        obtain ⟨j, hj', rfl⟩ := List.getElem_of_mem hr
        have hj : j < cs.length := by rw [hlen]; exact hj'
        rw [hmi j hj hj'] at hm
        injection hm with hm
        rcases Nat.lt_trichotomy j i with hlt | heq | hgt
        · have := (List.pairwise_iff_getElem.mp hnums) j i hj' hi' hlt
          omega
        · subst heq; exact le_refl _
        · exfalso
          have := (List.pairwise_iff_getElem.mp hdis) i j hi hj hgt
          rw [hic] at this
          have := hct.2
          omega
      intro n
      constructor
      · intro hn
        simp only [Option.map_some, Option.some.injEq] at hn
        rw [← hn]
        exact hself
      · intro hn
        simp only [Option.map_some, Option.some.injEq]
        exact isCycle_unique hself hn
    · simp only [Option.map_some, reduceCtorEq, false_iff]
      omega
  · have hout : t ≤ m0 ∨ lastEnd today table < t := by omega
    have hcb := (hcut.2.2.2 hout).1
    rw [hspec] at hcb
    rw [hcb]
    refine ⟨none, rfl, ?_, by simp [hout]⟩
    intro n
    simp only [reduceCtorEq, false_iff]
    rintro ⟨hle, ⟨r, hr, _, m, hm, hmt⟩, _⟩
    rcases hout with h1 | h1
    · -- the minimum of every row is at least the first
      obtain ⟨j, hj', rfl⟩ := List.getElem_of_mem hr
      have hj : j < cs.length := by rw [hlen]; exact hj'
      have hmj := (List.forall₂_iff_get.mp hz).2 j hj' hj
      simp only [List.get_eq_getElem] at hmj
      rw [hm] at hmj
      injection hmj with hmj
      have hn := (hsp cs[j] (List.getElem_mem hj)).ne
      have := (chain_mem (t := (cs[j]).cycle.l + 1) hsp hch).mp ⟨_, List.getElem_mem hj, by unfold Ivl.Mem; omega⟩
      omega
    · omega

theorem mapM_cycles (table : List Row) (today : Int) (c : Int → Option Int) (hc : ∀ t, cycleNumber table today t = .ok (c t)) :
    ∀ rows : List (Int × Fl), rows.mapM (fun r => do
      let k ← cycleNumber table today r.1
      (Except.ok (r.1, r.2, k) : Except PyErr (Int × Fl × Option Int))) = .ok (rows.map (fun r => (r.1, r.2, c r.1)))
  | [] => rfl
  | r :: l => by
    rw [List.mapM_cons, mapM_cycles table today c hc l]
    simp only [hc, bind, Except.bind]
    rfl

/-- the measured values of the data of one cycle -/
noncomputable def cycleValues (table : List Row) (today : Int) (rows : List (Int × Fl)) (n : Int) : List ℝ :=
  vals ((rows.filter (fun q => decide (IsCycle table today q.1 n))).map Prod.snd)

/-- C211: the labels of every datum of a series, for a well-formed table: a datum outside all cycles has none.  A datum of cycle `n` whose maximum
is recorded at `M` is on the rising edge up to `M` and on the falling edge after it.  If it is measured it is called a maximum of its cycle
if it is at least half the largest value measured in the cycle, otherwise a minimum: of its own cycle up to `M`, of the next one after it. -/
theorem C211_labels (table : List Row) (today m0 : Int) (h : Regular today table) (h0 : table.head?.bind Row.min = some m0)
    (rows : List (Int × Fl)) :
    ∃ ls, labelled table today rows = .ok ls ∧ ls.length = rows.length ∧
      ∀ (i : Nat) (t : Int) (v : Fl) (l : Lab), rows[i]? = some (t, v) → ls[i]? = some l →
        ((¬ ∃ n, IsCycle table today t n) → l.cycle = none ∧ l.extremum = none ∧ l.edge = none) ∧
        (∀ n, IsCycle table today t n → l.cycle = some n ∧
          ∀ r ∈ table, r.num = n → ∀ M, r.max = some M →
            l.edge = (if t ≤ M then some "Rise" else some "Fall") ∧
            (∀ y, v = .fin y → ∃ g ∈ cycleValues table today rows n, (∀ w ∈ cycleValues table today rows n, w ≤ g) ∧
              l.extremum = some (if g / 2 ≤ y then .max n else if t ≤ M then .min n else .min (n + 1))) ∧
            (v = .nan → l.extremum = none)) := by
  have hnums := regular_nums h
  have hex : ∀ t, ∃ o, cycleNumber table today t = .ok o ∧ (∀ n, o = some n ↔ IsCycle table today t n) := fun t => by
    obtain ⟨o, h1, h2, _⟩ := C211_cycle table today m0 h h0 t
    exact ⟨o, h1, h2⟩
  obtain ⟨c, hc⟩ : ∃ c : Int → Option Int, c = fun t => Classical.choose (hex t) := ⟨_, rfl⟩
  have hcn : ∀ t, cycleNumber table today t = .ok (c t) := fun t => by rw [hc]; exact (Classical.choose_spec (hex t)).1
  have hci : ∀ t n, c t = some n ↔ IsCycle table today t n := fun t => by rw [hc]; exact (Classical.choose_spec (hex t)).2
  refine ⟨labelRows table (rows.map (fun r => (r.1, r.2, c r.1))), ?_, by simp [labelRows], ?_⟩
  · unfold labelled
    rw [mapM_cycles table today c hcn]
    rfl
  · intro i t v l hi hl
    have hl' : l = match c t with
        | none => ⟨none, none, none⟩
        | some k => ⟨some k, extremumKind k (maxDate table k) (gmax (((rows.map (fun r => (r.1, r.2, c r.1))).filter
            (fun q => decide (q.2.2 = some k))).map (fun q => q.2.1))) t v, edge (maxDate table k) t⟩ := by
      unfold labelRows at hl
      rw [List.map_map, List.getElem?_map, hi] at hl
      simp only [Option.map_some, Option.some.injEq, Function.comp] at hl
      rw [← hl]
      cases c t <;> rfl
    refine ⟨?_, ?_⟩
    · intro hno
      have : c t = none := by
        cases hct : c t with
        | none => rfl
        | some n => exact absurd ⟨n, (hci t n).mp hct⟩ hno
      rw [this] at hl'
      simp [hl']
    · intro n hn
      have hct := (hci t n).mpr hn
      rw [hct] at hl'
      simp only at hl'
      refine ⟨by rw [hl'], ?_⟩
      intro r hr hrn M hM
      have hmd : maxDate table n = some M := by
        unfold maxDate
        have : table.find? (fun r => decide (r.num = n)) = some r := by
          obtain ⟨j, hj, rfl⟩ := List.getElem_of_mem hr
          rw [List.find?_eq_some_iff_getElem]
          refine ⟨by simpa using hrn, j, hj, rfl, ?_⟩
          intro k hk
          have := (List.pairwise_iff_getElem.mp hnums) k j (by omega) hj hk
          simp only [Bool.not_eq_eq_eq_not, Bool.not_true, decide_eq_false_iff_not]
          omega
        rw [this]
        exact hM
      have hg : ((rows.map (fun r => (r.1, r.2, c r.1))).filter (fun q => decide (q.2.2 = some n))).map (fun q => q.2.1) =
          (rows.filter (fun q => decide (IsCycle table today q.1 n))).map Prod.snd := by
        rw [List.filter_map, List.map_map]
        have : ((fun q : Int × Fl × Option Int => decide (q.2.2 = some n)) ∘ fun r : Int × Fl => (r.1, r.2, c r.1)) =
            fun q : Int × Fl => decide (IsCycle table today q.1 n) := by
          funext q
          simp only [Function.comp]
          exact decide_eq_decide.mpr (hci q.1 n)
        rw [this]
        rfl
      rw [hmd, hg] at hl'
      refine ⟨?_, ?_, ?_⟩
      · rw [hl']
        unfold edge
        by_cases htM : t ≤ M
        · simp [htM]
        · simp [htM, show M < t by omega]
      · intro y hy
        have hyv : y ∈ cycleValues table today rows n := by
          unfold cycleValues vals
          rw [List.mem_filterMap]
          refine ⟨v, List.mem_map.mpr ⟨(t, v), List.mem_filter.mpr ⟨List.mem_of_getElem? hi, by simpa using hn⟩, rfl⟩, ?_⟩
          rw [hy]
        obtain ⟨V, hV⟩ : ∃ V, V = cycleValues table today rows n := ⟨_, rfl⟩
        have hgm : ∃ g ∈ V, (∀ w ∈ V, w ≤ g) ∧
            gmax ((rows.filter (fun q => decide (IsCycle table today q.1 n))).map Prod.snd) = .fin g := by
          unfold gmax
          have hV' : vals ((rows.filter (fun q => decide (IsCycle table today q.1 n))).map Prod.snd) = V := hV.symm
          rw [hV']
          cases V with
          | nil => rw [← hV] at hyv; simp at hyv
          | cons a V =>
            refine ⟨V.foldl max a, ?_, ?_, rfl⟩
            · exact (foldl_max_spec a V).1
            · exact (foldl_max_spec a V).2
        obtain ⟨g, hgV, hgmax, hge⟩ := hgm
        refine ⟨g, by rw [← hV]; exact hgV, by rw [← hV]; exact hgmax, ?_⟩
        rw [hl', hge, hy]
        obtain ⟨e1, e2, e3, _⟩ := C114_labels n g y t M
        simp only
        by_cases h1 : g / 2 ≤ y
        · rw [if_pos h1, e1 h1]
        · rw [if_neg h1]
          push Not at h1
          by_cases h2 : t ≤ M
          · rw [if_pos h2, e2 h1 h2]
          · rw [if_neg h2, e3 h1 (by omega)]
      · intro hv
        rw [hl', hv]
        have h1 : ∀ x : Fl, ¬ Fl.le x .nan := by intro x; cases x <;> simp [Fl.le]
        have h2 : ∀ x : Fl, ¬ Fl.lt .nan x := by intro x; cases x <;> simp [Fl.lt]
        unfold extremumKind
        simp [h1, h2]

/-- the end of the shipped table -/
theorem ssn_end (today : Int) : lastEnd today ssnTable = if 22249 * dayNs < today then today else 24439 * dayNs := by
  have hd : ssnDays = ssnDays.dropLast ++ [((25 : Int), (18231 : Int), (22249 : Int))] := by decide +kernel
  unfold ssnTable
  rw [hd, List.map_append, List.map_singleton, lastEnd_append]
  rfl

theorem ssn_head : ssnTable.head?.bind Row.min = some (-78496 * dayNs) := by
  have : ssnDays.head? = some (1, -78496, firstOf 1761 6) := by decide +kernel
  unfold ssnTable
  rw [List.head?_map, this]
  rfl

/-- C211: with the shipped table every measured datum after 1755-02-01 and not after the end of cycle 25 (2036-11-29, or the date of the call from
2030-12-02 on) has a cycle between 1 and 25, an edge and an extremum. -/
theorem C211_shipped (today : Int) (rows : List (Int × Fl)) :
    ∃ ls, labelled ssnTable today rows = .ok ls ∧ ls.length = rows.length ∧
      ∀ (i : Nat) (t : Int) (v : Fl) (l : Lab), rows[i]? = some (t, v) → ls[i]? = some l → -78496 * dayNs < t →
        t ≤ (if 22249 * dayNs < today then today else 24439 * dayNs) →
        (∃ n, l.cycle = some n ∧ 1 ≤ n ∧ n ≤ 25) ∧ (∃ e, l.edge = some e) ∧ ((∃ y, v = .fin y) → ∃ k, l.extremum = some k) := by
  obtain ⟨ls, h1, h2, h3⟩ := C211_labels ssnTable today _ (ssn_regular today) ssn_head rows
  refine ⟨ls, h1, h2, ?_⟩
  intro i t v l hi hl ht0 ht1
  obtain ⟨_, hin⟩ := h3 i t v l hi hl
  obtain ⟨o, _, ho, hnone⟩ := C211_cycle ssnTable today _ (ssn_regular today) ssn_head t
  have hend : t ≤ lastEnd today ssnTable := by
    rw [ssn_end]
    exact ht1
  cases o with
  | none =>
    exfalso
    have := hnone.mp rfl
    omega
  | some n =>
    have hn := (ho n).mp rfl
    obtain ⟨hcyc, hrest⟩ := hin n hn
    obtain ⟨_, ⟨r, hr, hrn, _⟩, _⟩ := hn
    have hrow : ∃ M, r.max = some M ∧ 1 ≤ r.num ∧ r.num ≤ 25 := by
      unfold ssnTable at hr
      obtain ⟨d, hd, rfl⟩ := List.mem_map.mp hr
      have hall : ∀ d ∈ ssnDays, 1 ≤ d.1 ∧ d.1 ≤ 25 := by decide +kernel
      exact ⟨_, rfl, hall d hd⟩
    obtain ⟨M, hM, hr1, hr2⟩ := hrow
    obtain ⟨he, hx, _⟩ := hrest r hr hrn M hM
    refine ⟨⟨n, hcyc, by omega, by omega⟩, ?_, ?_⟩
    · rw [he]
      split_ifs
      · exact ⟨_, rfl⟩
      · exact ⟨_, rfl⟩
    · rintro ⟨y, hy⟩
      obtain ⟨g, _, _, hk⟩ := hx y hy
      exact ⟨_, hk⟩

/-- C211 (violated: the minimum begins the cycle): the datum dated at the minimum of a cycle — for the monthly series the month of the minimum —
is counted to the previous cycle, and that of the first cycle to none. -/
theorem C211_minimum (today : Int) (r : Row) (hr : r ∈ ssnTable) (m : Int) (hm : r.min = some m) :
    cycleNumber ssnTable today m = .ok (if r.num = 1 then none else some (r.num - 1)) := by
  obtain ⟨o, h1, h2, h3⟩ := C211_cycle ssnTable today _ (ssn_regular today) ssn_head m
  rw [h1]
  congr 1
  unfold ssnTable at hr
  obtain ⟨d, hd, rfl⟩ := List.mem_map.mp hr
  simp only [Option.some.injEq] at hm
  subst hm
  have hall : ∀ d ∈ ssnDays, d.2.1 ≤ 22249 ∧ (d.1 = 1 → d.2.1 = -78496) ∧ (d.1 ≠ 1 → ∃ e ∈ ssnDays, e.1 = d.1 - 1 ∧ e.2.1 < d.2.1) ∧
      (∀ e ∈ ssnDays, e.2.1 < d.2.1 → e.1 ≤ d.1 - 1) := by decide +kernel
  obtain ⟨a1, a2, a3, a4⟩ := hall d hd
  simp only
  by_cases h : d.1 = 1
  · rw [if_pos h, h3]
    left
    rw [a2 h]
  · rw [if_neg h, h2]
    refine ⟨?_, ?_, ?_⟩
    · rw [ssn_end]
      unfold dayNs
      split_ifs with hc <;> omega
    · obtain ⟨e, he, he1, he2⟩ := a3 h
      refine ⟨⟨e.1, some (e.2.1 * dayNs), some (e.2.2 * dayNs)⟩, ?_, he1, _, rfl, ?_⟩
      · unfold ssnTable
        exact List.mem_map.mpr ⟨e, he, rfl⟩
      · unfold dayNs; omega
    · intro r' hr' m' hm' hlt
      unfold ssnTable at hr'
      obtain ⟨e, he, rfl⟩ := List.mem_map.mp hr'
      simp only [Option.some.injEq] at hm'
      subst hm'
      exact a4 e he (by unfold dayNs at hlt; omega)

/-! ### Non-vacuity -/

/-- a monthly file of two rows, the second without a deviation -/
example : ∃ f, sidcDownload "m" [[.fin 2020, .fin 2020], [.fin 1, .fin 2], [.fin 2020.04, .fin 2020.12], [.fin 9, .fin 4],
    [.fin 3, .fin (-1)], [.fin 9, .fin 4], [.fin 1, .fin 1]] = .ok f ∧ (f.lookup "std") = some [.fin 3, .nan] := by
  obtain ⟨f, h, hget, _⟩ := (C210_download "m" _ rfl [[.fin 2020, .fin 2020], [.fin 1, .fin 2], [.fin 2020.04, .fin 2020.12], [.fin 9, .fin 4],
    [.fin 3, .fin (-1)], [.fin 9, .fin 4], [.fin 1, .fin 1]]).2 rfl
  refine ⟨f, h, ?_⟩
  rw [hget 4 "std" _ rfl rfl]
  have h3 : ¬ (3 : ℝ) = -1 := by norm_num
  simp [convertNan, h3]

/-- January 2020 (day 18262) is in cycle 25, December 2019, the month of the minimum, in cycle 24 -/
example (today : Int) : cycleNumber ssnTable today (firstOf 2019 12 * dayNs) = .ok (some 24) := by
  have : (⟨25, some (firstOf 2019 12 * dayNs), some (firstOf 2030 12 * dayNs)⟩ : Row) ∈ ssnTable := by
    unfold ssnTable
    exact List.mem_map.mpr ⟨(25, firstOf 2019 12, firstOf 2030 12), by decide +kernel, rfl⟩
  have := C211_minimum today _ this _ rfl
  simpa using this

end Act
end SW
