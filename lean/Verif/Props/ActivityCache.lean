import Verif.ActivityCache
import Mathlib.Tactic.Linarith

/-!
# C61, C62, C63, C110, C111: the data cache over all histories, crash points and days
-/

namespace SW
namespace Cache

/-- the metadata files beside the data of day `n` -/
def metaOf : Source → Nat → List Nat
  | .lisird, n => [n]
  | .sidc, _ => []

/-- a healthy cache: nothing at all, or exactly one complete data set of some day (with metadata for LISIRD) -/
def Healthy (src : Source) (d : Disk) : Prop :=
  d = ⟨[], []⟩ ∨ ∃ n, d = ⟨[⟨n, true⟩], metaOf src n⟩

/-- the day of the data in a healthy cache -/
def dayOf (d : Disk) : Nat := (d.csv.head?.map Csv.day).getD 0

theorem getCtime_healthy {src : Source} {d : Disk} (h : Healthy src d) : getCtime [] d = .ok (dayOf d) := by
  rcases h with rfl | ⟨n, rfl⟩
  · rfl
  · simp [getCtime, dayOf]

theorem download_healthy {src : Source} {d : Disk} (h : Healthy src d) {today : Nat} (ht : dayOf d < today) :
    run d (downloadEffects src today (dayOf d)) =
      ⟨[⟨today, true⟩], metaOf src today⟩ := by
  rcases h with rfl | ⟨n, rfl⟩
  · have h0 : today ≠ 0 := by simp [dayOf] at ht; omega
    cases src <;> simp [metaOf, run, downloadEffects, applyEff, dayOf, h0]
  · have h1 : n < today := ht
    have h2 : n ≠ today := by omega
    have h3 : today ≠ n := by omega
    cases src <;> simp [metaOf, run, downloadEffects, applyEff, dayOf, h2, h3]

/-- C61: one program run on a healthy cache whose data are not from the future. With a reachable server (needed only if the
cache is older than today) it serves complete data of today and leaves exactly today's data in the cache; if the server fails,
the cache is untouched and the error is reported. -/
theorem C61_session {src : Source} {d : Disk} (h : Healthy src d) (today : Nat) (h0 : 0 < today) (ht : dayOf d ≤ today)
    (net : Bool) :
    (net = true ∨ dayOf d = today →
      session [] src today net d = (⟨[⟨today, true⟩], metaOf src today⟩, .ok ⟨today, true⟩)) ∧
    (net = false → dayOf d ≠ today → session [] src today net d = (d, .error .other)) := by
  unfold session construct
  rw [getCtime_healthy h]
  simp only []
  by_cases hlt : dayOf d < today
  · constructor
    · rintro (rfl | he)
      · simp only [loadData, maybeUpdate, hlt, if_true, download_healthy h hlt]
        cases src <;> simp [metaOf, readData]
      · omega
    · rintro rfl _
      simp [metaOf, loadData, maybeUpdate, hlt, run]
  · have heq : dayOf d = today := by omega
    constructor
    · intro _
      rcases h with rfl | ⟨n, rfl⟩
      · simp [dayOf] at heq; omega
      · have hn : n = today := heq
        subst hn
        cases src <;> simp [metaOf, loadData, maybeUpdate, dayOf, run, readData]
    · intro _ hne; exact absurd heq hne

/-- a history of program runs: day and whether the server was reachable -/
def history (parent : List Nat) (src : Source) (d : Disk) : List (Nat × Bool) → Disk
  | [] => d
  | s :: l => history parent src (session parent src s.1 s.2 d).1 l

/-- a program run that writes something to the cache directory -/
def downloaded (src : Source) (day : Nat) (net : Bool) (d : Disk) : Bool :=
  match construct [] d with
  | .ok l => !(maybeUpdate src day net l).1.isEmpty
  | .error _ => false

theorem downloaded_iff {src : Source} {d : Disk} (h : Healthy src d) (day : Nat) (net : Bool) :
    downloaded src day net d = true ↔ (net = true ∧ dayOf d < day) := by
  unfold downloaded construct
  rw [getCtime_healthy h]
  simp only [maybeUpdate]
  by_cases hlt : dayOf d < day
  · cases net <;> cases src <;> simp [hlt, downloadEffects]
  · simp [hlt]

/-- number of successful downloads in a history -/
def countDownloads (src : Source) (d : Disk) : List (Nat × Bool) → Nat → Nat
  | [], _ => 0
  | s :: l, day =>
    (if s.1 = day ∧ downloaded src s.1 s.2 d = true then 1 else 0) + countDownloads src (session [] src s.1 s.2 d).1 l day

/-- C61: over every history of program runs on non-decreasing days the cache stays healthy, is never newer than the last run,
and each day sees at most one successful download. -/
theorem C61_history (src : Source) (l : List (Nat × Bool)) : ∀ (d : Disk), Healthy src d →
    (∀ s ∈ l, 0 < s.1 ∧ dayOf d ≤ s.1) → l.Pairwise (fun a b => a.1 ≤ b.1) →
    Healthy src (history [] src d l) ∧
    (∀ s ∈ l, ∀ t, (∀ s' ∈ l, s'.1 ≤ t) → dayOf (history [] src d l) ≤ t) ∧
    (∀ day, countDownloads src d l day ≤ 1) ∧ (∀ day ≤ dayOf d, countDownloads src d l day = 0) := by
  induction l with
  | nil =>
    intro d hd _ _
    exact ⟨hd, by simp, fun _ => Nat.zero_le _, fun _ _ => rfl⟩
  | cons s l ih =>
    obtain ⟨day, net⟩ := s
    intro d hd hday hsort
    have hs := hday (day, net) (by simp)
    simp only [] at hs
    obtain ⟨h1, h2⟩ := C61_session hd day hs.1 hs.2 net
    rw [List.pairwise_cons] at hsort
    by_cases hok : net = true ∨ dayOf d = day
    · have hstep := h1 hok
      have hh : Healthy src (session [] src day net d).1 := by
        rw [hstep]; exact Or.inr ⟨day, rfl⟩
      have hdy : dayOf (session [] src day net d).1 = day := by rw [hstep]; cases src <;> rfl
      obtain ⟨a, b, c, e⟩ := ih (session [] src day net d).1 hh
        (fun s' hs' => ⟨(hday s' (by simp [hs'])).1, by rw [hdy]; exact hsort.1 s' hs'⟩) hsort.2
      refine ⟨a, ?_, ?_, ?_⟩
      · intro s' _ t ht
        cases l with
        | nil =>
          show dayOf (session [] src day net d).1 ≤ t
          rw [hdy]; exact ht (day, net) (by simp)
        | cons s2 l2 => exact b s2 (by simp) t (fun s' hs' => ht s' (by simp [hs']))
      · intro dd
        unfold countDownloads
        simp only []
        split
        · next hc =>
          rw [e dd (by rw [hdy]; omega)]
        · have := c dd; omega
      · intro dd hdd
        unfold countDownloads
        simp only []
        rw [if_neg (by rw [downloaded_iff hd]; omega), e dd (by rw [hdy]; omega)]
    · push Not at hok
      have hn : net = false := by cases net; rfl; exact absurd rfl hok.1
      have hstep := h2 hn hok.2
      have hd' : (session [] src day net d).1 = d := by rw [hstep]
      obtain ⟨a, b, c, e⟩ := ih d hd (fun s' hs' => hday s' (by simp [hs'])) hsort.2
      refine ⟨?_, ?_, ?_, ?_⟩
      · rw [history, hd']; exact a
      · intro s' _ t ht
        rw [history, hd']
        cases l with
        | nil => exact le_trans hs.2 (ht (day, net) (by simp))
        | cons s2 l2 => exact b s2 (by simp) t (fun s' hs' => ht s' (by simp [hs']))
      · intro dd
        unfold countDownloads
        simp only [downloaded_iff hd, hn, Bool.false_eq_true, false_and, and_false, if_false, Nat.zero_add]
        have := c dd
        rw [hn] at hd'
        rw [hd']
        exact this
      · intro dd hdd
        unfold countDownloads
        simp only [downloaded_iff hd, hn, Bool.false_eq_true, false_and, and_false, if_false, Nat.zero_add]
        rw [hn] at hd'
        rw [hd']
        exact e dd hdd

/-- non-vacuity: three runs on two days, the second without network -/
example : history [] .lisird ⟨[], []⟩ [(20000, true), (20000, false), (20001, true)] = ⟨[⟨20001, true⟩], [20001]⟩ := by
  decide +kernel

/-! ### C62: crashes -/

/-- the directory after a crash of a run at day `today`: only the first `k` effects of the download happened -/
def crashed (src : Source) (today : Nat) (k : Nat) (d : Disk) : Disk :=
  run d ((downloadEffects src today (dayOf d)).take k)

/-- C62 (violated): after a crash between the appearance of the new file and the removal of the old one, every later program
run, on any day and whatever the network, ends in AssertionError and changes nothing -- the cache never recovers. -/
theorem C62_crash_wedges (src : Source) (n today : Nat) (ht : n < today) (k : Nat) (hk : 1 ≤ k)
    (hk' : k ≤ match src with | .lisird => 3 | .sidc => 2) :
    let d0 : Disk := ⟨[⟨n, true⟩], metaOf src n⟩
    ∀ l : List (Nat × Bool), history [] src (crashed src today k d0) l = crashed src today k d0 ∧
      ∀ day net, (session [] src day net (crashed src today k d0)).2 = .error .assertionError := by
  intro d0 l
  have h2 : n ≠ today := by omega
  have hbad : ∀ day net, session [] src day net (crashed src today k d0) = (crashed src today k d0, .error .assertionError) := by
    intro day net
    have hc : getCtime [] (crashed src today k d0) = .error .assertionError := by
      cases src
      · have : k = 1 ∨ k = 2 ∨ k = 3 := by simp at hk'; omega
        rcases this with rfl | rfl | rfl <;>
          simp [metaOf, d0, crashed, run, downloadEffects, applyEff, dayOf, getCtime, h2]
      · have : k = 1 ∨ k = 2 := by simp at hk'; omega
        rcases this with rfl | rfl <;>
          simp [metaOf, d0, crashed, run, downloadEffects, applyEff, dayOf, getCtime, h2]
    unfold session construct
    rw [hc]
  constructor
  · induction l with
    | nil => rfl
    | cons s l ih => rw [history, hbad]; exact ih
  · intro day net; rw [hbad]

/-- C62 (violated): a crash while the very first file is being written leaves a truncated file which the next run of the day
serves as today's data (SIDC), or, if the crash comes before the metadata, makes every later run of the day fail (LISIRD);
crashes before the first effect or after the last removal are harmless. -/
theorem C62_first_download (today : Nat) (net : Bool) :
    (session [] .sidc today net (crashed .sidc today 1 ⟨[], []⟩)).2 = .ok ⟨today, false⟩ ∧
    (session [] .lisird today net (crashed .lisird today 1 ⟨[], []⟩)).2 = .error .fileNotFound ∧
    (session [] .lisird today net (crashed .lisird today 2 ⟨[], []⟩)).2 = .error .fileNotFound ∧
    (∀ src d, Healthy src d → dayOf d < today → Healthy src (crashed src today 0 d) ∧
      Healthy src (crashed src today (downloadEffects src today (dayOf d)).length d)) := by
  refine ⟨?_, ?_, ?_, ?_⟩
  · simp [metaOf, crashed, run, downloadEffects, applyEff, session, construct, getCtime, loadData, maybeUpdate, readData]
  · simp [metaOf, crashed, run, downloadEffects, applyEff, session, construct, getCtime, loadData, maybeUpdate, readData]
  · simp [metaOf, crashed, run, downloadEffects, applyEff, session, construct, getCtime, loadData, maybeUpdate, readData]
  · intro src d hd hlt
    refine ⟨hd, ?_⟩
    unfold crashed
    rw [List.take_length, download_healthy hd hlt]
    exact Or.inr ⟨today, rfl⟩

/-! ### C63 -/

/-- C63 (violated): `age` raises AttributeError whatever subset of the loader's attributes has been assigned. -/
theorem C63_age (present : List String) (h : ∀ a ∈ present, a ∈ loaderAttrs) : age present = .error .attributeError := by
  unfold age
  rw [if_neg]
  intro hm
  exact absurd (h _ hm) (by decide)

/-! ### C110: a loader that lives longer than a day -/

/-- C110 (violated): a loader keeps the creation day it read at construction. Loading twice on one day downloads twice; loading
on two successive days leaves both files behind, after which every new program run ends in AssertionError. -/
theorem C110_long_lived_loader (src : Source) (n t1 t2 : Nat) (h1 : n < t1) (h2 : t1 < t2) :
    let d0 : Disk := ⟨[⟨n, true⟩], metaOf src n⟩
    ∃ l, construct [] d0 = .ok l ∧
      downloads t1 l = 1 ∧
      (let d1 := (loadData src t1 true l d0).1
       -- a second load on the same day downloads again
       downloads t1 l = 1 ∧
       let d2 := (loadData src t2 true l d1).1
       (loadData src t2 true l d1).2 = .ok ⟨t2, true⟩ ∧
       d2.csv = [⟨t1, true⟩, ⟨t2, true⟩] ∧
       ∀ day net, session [] src day net d2 = (d2, .error .assertionError)) := by
  intro d0
  have a1 : n ≠ t1 := by omega
  have a2 : n ≠ t2 := by omega
  have a3 : t1 ≠ t2 := by omega
  have a4 : t1 ≠ n := by omega
  have a5 : t2 ≠ n := by omega
  have a6 : t2 ≠ t1 := by omega
  have a7 : n < t2 := by omega
  refine ⟨⟨n⟩, by simp [metaOf, d0, construct, getCtime], by simp [downloads, h1], by simp [downloads, h1], ?_⟩
  cases src <;>
    simp [metaOf, d0, loadData, maybeUpdate, run, downloadEffects, applyEff, readData, session, construct, getCtime,
      h1, a1, a2, a3, a4, a5, a6, a7]

/-! ### C111: path and clock -/

/-- C111 (violated): if the path of the data directory itself contains an eight-digit group, a filled cache can never be used
again: every run after the first successful one ends in AssertionError unless the file happens to carry that very date. -/
theorem C111_digits_in_path (src : Source) (p today day : Nat) (net : Bool) (h0 : 0 < today) (hp : p ≠ today) :
    let d1 := (session [p] src today true ⟨[], []⟩).1
    d1 = ⟨[⟨today, true⟩], metaOf src today⟩ ∧
    session [p] src day net d1 = (d1, .error .assertionError) := by
  have h1 : today ≠ 0 := by omega
  cases src <;>
    simp [metaOf, session, construct, getCtime, loadData, maybeUpdate, run, downloadEffects, applyEff, readData, h0, h1, hp]

/-- C111 (violated): a file dated after today (clock set back, or another time zone) is not replaced and today's file does not
exist: FileNotFoundError; likewise if midnight passes between the update and the read. -/
theorem C111_clock (src : Source) (n today : Nat) (net : Bool) (h : today < n) :
    let d : Disk := ⟨[⟨n, true⟩], metaOf src n⟩
    session [] src today net d = (d, .error .fileNotFound) ∧
    readData src (n + 1) d = .error .fileNotFound := by
  have h1 : ¬ n < today := by omega
  have h2 : n ≠ today := by omega
  cases src <;>
    simp [metaOf, session, construct, getCtime, loadData, maybeUpdate, run, readData, h1, h2]

end Cache
end SW
