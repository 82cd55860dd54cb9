import Verif.Plans
import Verif.Props.Scripts3
import Mathlib.Data.List.Basic
import Mathlib.Tactic.Linarith

/-!
# C241–C244: issues from plans

Specification: a tracker is a list of issues, the newest first; `titled t` counts the issues with the title `t`.  A history is a list of
sessions; each session may be killed after any number of files, and each request may be answered, refused, or carried out with the answer
lost.
-/

namespace SW
namespace Plans

/-! ### C241: listing the existing issues -/

theorem drop_take_nil {n k : Nat} (hn : 0 < n) {l : List Txt} (h : (l.drop k).take n = []) : l.length ≤ k := by
  rcases List.take_eq_nil_iff.mp h with h | h
  · omega
  · simpa using h

/-- what the loop returns from page `p` on contains every position it passes -/
theorem fetch_mem {n : Nat} (hn : 0 < n) {L : Nat → List Txt} : ∀ (fuel p : Nat) (ts : List Txt), fetch n L fuel p = some ts → 0 < p →
    ∃ q, p ≤ q ∧ (L q).length ≤ (q - 1) * n ∧
      ∀ k, p ≤ k → k < q → ∀ (j : Nat) (t : Txt), (k - 1) * n ≤ j → j < k * n → (L k)[j]? = some t → t ∈ ts := by
  intro fuel
  induction fuel with
  | zero => intro p ts h _; simp [fetch] at h
  | succ fuel ih =>
    intro p ts h hp
    unfold fetch at h
    generalize hpg : ((L p).drop ((p - 1) * n)).take n = pg at h
    cases pg with
    | nil =>
      exact ⟨p, le_refl _, drop_take_nil hn hpg, fun k h1 h2 => by omega⟩
    | cons t r =>
      simp only [Option.map_eq_some_iff] at h
      obtain ⟨us, hu, hts⟩ := h
      obtain ⟨q, q1, q2, q3⟩ := ih (p + 1) us hu (by omega)
      refine ⟨q, by omega, q2, ?_⟩
      intro k k1 k2 j u j1 j2 hj
      rw [← hts, List.mem_append]
      rcases Nat.lt_or_eq_of_le k1 with hk | hk
      · exact Or.inr (q3 k (by omega) k2 j u j1 j2 hj)
      · subst hk
        left
        rw [← hpg]
        have hlen : j - (p - 1) * n < n := by
          have : p * n = (p - 1) * n + n := by
            obtain ⟨m, rfl⟩ : ∃ m, p = m + 1 := ⟨p - 1, by omega⟩
            simp [Nat.add_mul]
          omega
        rw [List.mem_iff_getElem?]
        refine ⟨j - (p - 1) * n, ?_⟩
        rw [List.getElem?_take_of_lt hlen, List.getElem?_drop]
        rw [show (p - 1) * n + (j - (p - 1) * n) = j by omega]
        exact hj

/-- C241: if nothing changes meanwhile, the pages put together are the whole list, in order, after one request more than there are
pages. -/
theorem C241_all (n : Nat) (hn : 0 < n) (l : List Txt) : fetch n (fun _ => l) (l.length / n + 2) 1 = some l := by
  have gen : ∀ (fuel p : Nat), 0 < p → l.length / n + 2 ≤ fuel + (p - 1) →
      fetch n (fun _ => l) fuel p = some (l.drop ((p - 1) * n)) ∨ fuel = 0 := by
    intro fuel
    induction fuel with
    | zero => intro p _ _; exact Or.inr rfl
    | succ fuel ih =>
      intro p hp hf
      left
      unfold fetch
      generalize hpg : (l.drop ((p - 1) * n)).take n = pg
      cases pg with
      | nil =>
        have := drop_take_nil hn hpg
        simp [this]
      | cons t r =>
        simp only []
        rcases ih (p + 1) (by omega) (by omega) with h | h
        · rw [h, Option.map_some, ← hpg]
          congr 1
          rw [show (p + 1 - 1) * n = (p - 1) * n + n by
            obtain ⟨m, rfl⟩ : ∃ m, p = m + 1 := ⟨p - 1, by omega⟩
            simp [Nat.add_mul], ← List.drop_drop, List.take_append_drop]
        · exfalso
          subst h
          have h1 : l.length / n + 2 ≤ p := by omega
          have h2 : l.length ≤ (p - 1) * n := by
            have h3 := Nat.lt_mul_div_succ l.length hn
            have h4 : l.length / n + 1 ≤ p - 1 := by omega
            have h5 := Nat.mul_le_mul_right n h4
            rw [Nat.mul_comm n] at h3
            omega
          rw [List.drop_eq_nil_of_le h2] at hpg
          simp at hpg
  rcases gen (l.length / n + 2) 1 (by omega) (by omega) with h | h
  · simpa using h
  · exact absurd h (Nat.succ_ne_zero _)

/-- C241: issues created by others while the pages are read (they are listed first) hide no title that was there at the start. -/
theorem C241_growing (n : Nat) (hn : 0 < n) (L : Nat → List Txt) (hg : ∀ k, ∃ new, L (k + 1) = new ++ L k) (fuel : Nat)
    (ts : List Txt) (h : fetch n L fuel 1 = some ts) : ∀ t ∈ L 1, t ∈ ts := by
  intro t ht
  obtain ⟨j, hj⟩ := List.mem_iff_getElem?.mp ht
  obtain ⟨q, q1, q2, q3⟩ := fetch_mem hn fuel 1 ts h (by omega)
  -- the position of the title when page k is asked for
  have hpos : ∀ k, ∃ a : Nat → Nat, a 0 = j ∧ (∀ i, i < k → a i ≤ a (i + 1)) ∧ ∀ i, i ≤ k → (L (i + 1))[a i]? = some t := by
    intro k
    induction k with
    | zero =>
      refine ⟨fun _ => j, rfl, fun i hi => by omega, fun i hi => ?_⟩
      obtain rfl : i = 0 := Nat.le_zero.mp hi
      exact hj
    | succ k ih =>
      obtain ⟨a, a0, a1, a2⟩ := ih
      obtain ⟨new, hnew⟩ := hg (k + 1)
      refine ⟨fun i => if i ≤ k then a i else new.length + a k, by simp [a0], ?_, ?_⟩
      · intro i hi
        rcases Nat.lt_or_eq_of_le (Nat.le_of_lt_succ hi) with h1 | h1
        · simp [show i ≤ k by omega, show i + 1 ≤ k by omega, a1 i h1]
        · subst h1; simp
      · intro i hi
        by_cases h1 : i ≤ k
        · simp [h1, a2 i h1]
        · obtain rfl : i = k + 1 := by omega
          simp only [h1, if_false]
          rw [hnew, List.getElem?_append_right (by omega), Nat.add_sub_cancel_left]
          exact a2 k (le_refl _)
  obtain ⟨a, a0, a1, a2⟩ := hpos (q - 1)
  have hlast : a (q - 1) < (q - 1) * n := by
    have := (List.getElem?_eq_some_iff.mp (a2 (q - 1) (le_refl _))).1
    rw [show q - 1 + 1 = q by omega] at this
    omega
  -- the first request whose page ends behind the title
  have hex : ∃ i, a i < (i + 1) * n ∧ i ≤ q - 1 := ⟨q - 1, by
    have : (q - 1) * n ≤ (q - 1 + 1) * n := Nat.mul_le_mul_right _ (by omega)
    omega, le_refl _⟩
  classical
  have hmin := Nat.find_spec hex
  obtain ⟨i, hi⟩ : ∃ i, i = Nat.find hex := ⟨_, rfl⟩
  rw [← hi] at hmin
  have hlow : i * n ≤ a i := by
    cases i with
    | zero => simp
    | succ i =>
      have h1 := Nat.find_min hex (show i < Nat.find hex by omega)
      have h2 : ¬ a i < (i + 1) * n := fun h => h1 ⟨h, by omega⟩
      have h3 := a1 i (by omega)
      omega
  have hiq : i < q - 1 ∨ q - 1 = i := by omega
  rcases hiq with hiq | hiq
  · exact q3 (i + 1) (by omega) (by omega) (a i) t (by simpa using hlow) hmin.1 (a2 i (by omega))
  · exfalso
    rw [hiq] at hlast
    omega

/-- C241, violated: an issue removed while the pages are read moves the first title of the next page to a page already read: it is not
found, and its plan is created a second time. -/
theorem C241_missed (n : Nat) (hn : 0 < n) (a x : Txt) (A R : List Txt) (hA : (a :: A).length = n) (hxA : x ∉ a :: A) (hxR : x ∉ R)
    (fuel : Nat) (ts : List Txt)
    (h : fetch n (fun k => if k = 1 then a :: A ++ x :: R else A ++ x :: R) fuel 1 = some ts) : x ∉ ts := by
  have tail : ∀ (fuel p : Nat) (us : List Txt), 2 ≤ p →
      fetch n (fun k => if k = 1 then a :: A ++ x :: R else A ++ x :: R) fuel p = some us → x ∉ us := by
    intro fuel
    induction fuel with
    | zero => intro p us _ h; simp [fetch] at h
    | succ fuel ih =>
      intro p us hp h
      unfold fetch at h
      rw [if_neg (by omega)] at h
      generalize hpg : ((A ++ x :: R).drop ((p - 1) * n)).take n = pg at h
      have hin : ∀ u ∈ pg, u ∈ R := by
        intro u hu
        rw [← hpg] at hu
        have h1 := List.mem_of_mem_take hu
        have h2 : n ≤ (p - 1) * n := Nat.le_mul_of_pos_left n (by omega)
        have h3 : A ++ x :: R = (A ++ [x]) ++ R := by simp
        rw [h3, List.drop_append, List.drop_eq_nil_of_le (by simp at hA ⊢; omega), List.nil_append] at h1
        exact List.mem_of_mem_drop h1
      cases pg with
      | nil => simp only [Option.some.injEq] at h; rw [← h]; simp
      | cons t r =>
        simp only [Option.map_eq_some_iff] at h
        obtain ⟨vs, hv, hus⟩ := h
        rw [← hus, List.mem_append]
        rintro (hx | hx)
        · exact hxR (hin x hx)
        · exact ih (p + 1) vs (by omega) hv hx
  cases fuel with
  | zero => simp [fetch] at h
  | succ fuel =>
    unfold fetch at h
    rw [if_pos rfl] at h
    have hpg : ((a :: A ++ x :: R).drop ((1 - 1) * n)).take n = a :: A := by
      simp only [Nat.sub_self, Nat.zero_mul, List.drop_zero]
      rw [← hA, List.take_left]
    rw [hpg] at h
    simp only [Option.map_eq_some_iff] at h
    obtain ⟨vs, hv, hus⟩ := h
    rw [← hus, List.mem_append]
    rintro (hx | hx)
    · exact hxA hx
    · exact tail fuel 2 vs (by omega) hv hx

example : fetch 2 (fun _ => [['a'], ['b'], ['c']]) 3 1 = some [['a'], ['b'], ['c']] := C241_all 2 (by omega) _
example : fetch 2 (fun k => if k = 1 then [['a'], ['b'], ['c'], ['d']] else [['b'], ['c'], ['d']]) 5 1 = some [['a'], ['b'], ['d']] := by
  decide

/-! ### C242: runs -/

/-- the number of issues with a title -/
def titled (t : Txt) (tracker : List Issue) : Nat := (tracker.filter fun i => i.title = t).length

/-- the titles of the readable plans -/
def planTitles (yaml : Txt → Yaml) (files : List File) : List Txt :=
  files.filterMap fun f => match issueOf yaml f with
    | .ok i => some i.title
    | .error _ => none

/-- a session: the answers, and the number of files after which it is killed -/
structure Session where
  replies : Nat → Reply
  killed : Nat

/-- the tracker after a session, and after a history of sessions -/
def after (yaml : Txt → Yaml) (files : List File) (tracker : List Issue) (s : Session) : List Issue :=
  (run yaml s.replies (files.take s.killed) tracker).1

theorem loop_suffix (yaml : Txt → Yaml) (known : List Txt) (replies : Nat → Reply) : ∀ (files : List File) (k : Nat) (tr : List Issue),
    ∃ new, (loop yaml known replies k files tr).1 = new ++ tr ∧
      (∀ i ∈ new, i.title ∉ known ∧ ∃ f ∈ files, issueOf yaml f = .ok i) ∧
      (∀ t, titled t new ≤ (planTitles yaml files).count t) ∧
      ((∀ j, replies j = .done) → ∀ f ∈ files, ∀ i, issueOf yaml f = .ok i → i.title ∉ known → i ∈ new) := by
  intro files
  induction files with
  | nil => intro k tr; exact ⟨[], rfl, by simp, by simp [titled, planTitles], by simp⟩
  | cons f fs ih =>
    intro k tr
    simp only [loop]
    obtain ⟨new, h1, h2, h3, h4⟩ := ih (k + 1) (step yaml known (replies k) f tr).1
    rw [h1]
    have hpt : ∀ t, (planTitles yaml fs).count t ≤ (planTitles yaml (f :: fs)).count t := by
      intro t
      unfold planTitles
      rw [List.filterMap_cons]
      split
      · exact le_refl _
      · exact List.count_le_count_cons
    have keep : (step yaml known (replies k) f tr).1 = tr → (∀ i, (∀ j, replies j = .done) → issueOf yaml f = .ok i → i.title ∈ known) →
        ∃ new_1, new ++ (step yaml known (replies k) f tr).1 = new_1 ++ tr ∧
        (∀ i ∈ new_1, i.title ∉ known ∧ ∃ f_1 ∈ f :: fs, issueOf yaml f_1 = .ok i) ∧
        (∀ t, titled t new_1 ≤ (planTitles yaml (f :: fs)).count t) ∧
        ((∀ j, replies j = .done) → ∀ f_1 ∈ f :: fs, ∀ i, issueOf yaml f_1 = .ok i → i.title ∉ known → i ∈ new_1) := by
      intro hst hk
      rw [hst]
      refine ⟨new, rfl, fun i hi => ⟨(h2 i hi).1, ?_⟩, fun t => (h3 t).trans (hpt t), ?_⟩
      · obtain ⟨g, hg, hi'⟩ := (h2 i hi).2
        exact ⟨g, List.mem_cons_of_mem _ hg, hi'⟩
      · intro hd g hg i hi hn
        rcases List.mem_cons.mp hg with rfl | hg
        · exact absurd (hk i hd hi) hn
        · exact h4 hd g hg i hi hn
    have add : ∀ i, issueOf yaml f = .ok i → i.title ∉ known → (step yaml known (replies k) f tr).1 = i :: tr →
        ∃ new_1, new ++ (step yaml known (replies k) f tr).1 = new_1 ++ tr ∧
        (∀ i ∈ new_1, i.title ∉ known ∧ ∃ f_1 ∈ f :: fs, issueOf yaml f_1 = .ok i) ∧
        (∀ t, titled t new_1 ≤ (planTitles yaml (f :: fs)).count t) ∧
        ((∀ j, replies j = .done) → ∀ f_1 ∈ f :: fs, ∀ i, issueOf yaml f_1 = .ok i → i.title ∉ known → i ∈ new_1) := by
      intro i hi hn hst
      rw [hst]
      refine ⟨new ++ [i], by simp, ?_, ?_, ?_⟩
      · intro u hu
        rcases List.mem_append.mp hu with hu | hu
        · obtain ⟨q1, g, hg, q2⟩ := h2 u hu
          exact ⟨q1, g, List.mem_cons_of_mem _ hg, q2⟩
        · rw [List.mem_singleton.mp hu]; exact ⟨hn, f, by simp, hi⟩
      · intro t
        have hc : planTitles yaml (f :: fs) = i.title :: planTitles yaml fs := by
          unfold planTitles
          rw [List.filterMap_cons, hi]
        have ht : titled t (new ++ [i]) = titled t new + if i.title = t then 1 else 0 := by
          unfold titled
          rw [List.filter_append, List.length_append]
          by_cases h : i.title = t <;> simp [h]
        rw [ht, hc, List.count_cons]
        have := h3 t
        by_cases h : i.title = t
        · simp [h]; exact this
        · simp [h]; exact this
      · intro hd g hg u hu hnu
        rcases List.mem_cons.mp hg with rfl | hg
        · rw [hi] at hu; injection hu with hu; subst hu; simp
        · exact List.mem_append_left _ (h4 hd g hg u hu hnu)
    cases hi : issueOf yaml f with
    | error e =>
      exact keep (by unfold step; rw [hi]) (fun i _ h => by rw [hi] at h; exact absurd h (by simp))
    | ok i =>
      by_cases hk : i.title ∈ known
      · refine keep (by unfold step; rw [hi]; simp only []; rw [if_pos hk]) (fun u _ h => ?_)
        rw [hi] at h; injection h with h; subst h; exact hk
      · have hr : replies k = .done ∨ replies k = .lost ∨ replies k = .refused := by
          cases replies k <;> simp
        rcases hr with hr | hr | hr
        · exact add i hi hk (by unfold step; rw [hi]; simp only []; rw [if_neg hk, hr])
        · exact add i hi hk (by unfold step; rw [hi]; simp only []; rw [if_neg hk, hr])
        · refine keep (by unfold step; rw [hi]; simp only []; rw [if_neg hk, hr]) (fun u hd _ => ?_)
          rw [hd k] at hr; exact absurd hr (by simp)

theorem titled_append (t : Txt) (a b : List Issue) : titled t (a ++ b) = titled t a + titled t b := by
  unfold titled; rw [List.filter_append, List.length_append]

theorem titled_zero {t : Txt} {l : List Issue} : titled t l = 0 ↔ t ∉ l.map Issue.title := by
  unfold titled
  rw [List.length_eq_zero_iff, List.filter_eq_nil_iff]
  simp

theorem planTitles_take (yaml : Txt → Yaml) (files : List File) (k : Nat) :
    (planTitles yaml (files.take k)).Sublist (planTitles yaml files) :=
  (List.take_sublist k files).filterMap _

/-- C242: a session adds issues and changes none; it adds only issues of plans whose title no issue had before, each as often as its
title occurs among the plans. -/
theorem C242_adds (yaml : Txt → Yaml) (files : List File) (tracker : List Issue) (s : Session) :
    ∃ new, after yaml files tracker s = new ++ tracker ∧
      (∀ i ∈ new, (∃ f ∈ files, issueOf yaml f = .ok i) ∧ titled i.title tracker = 0) ∧
      ∀ t, titled t new ≤ (planTitles yaml files).count t := by
  obtain ⟨new, h1, h2, h3, _⟩ := loop_suffix yaml (tracker.map Issue.title) s.replies (files.take s.killed) 0 tracker
  refine ⟨new, h1, fun i hi => ⟨?_, titled_zero.mpr (h2 i hi).1⟩, fun t => (h3 t).trans ((planTitles_take yaml files s.killed).count_le t)⟩
  obtain ⟨f, hf, e⟩ := (h2 i hi).2
  exact ⟨f, List.mem_of_mem_take hf, e⟩

/-- C242: if the plans have distinct titles, no history of sessions - killed anywhere, with refused requests and lost answers - ever
makes a second issue for a plan: a title has at most one issue more than others gave it, and none if it had one. -/
theorem C242_once (yaml : Txt → Yaml) (files : List File) (hd : (planTitles yaml files).Nodup) (tracker : List Issue)
    (hist : List Session) (t : Txt) :
    titled t (hist.foldl (after yaml files) tracker) ≤ max 1 (titled t tracker) := by
  induction hist generalizing tracker with
  | nil => exact le_max_right _ _
  | cons s hist ih =>
    simp only [List.foldl_cons]
    refine (ih (after yaml files tracker s)).trans ?_
    apply max_le (le_max_left _ _)
    obtain ⟨new, h1, h2, h3⟩ := C242_adds yaml files tracker s
    rw [h1, titled_append]
    by_cases h0 : titled t tracker = 0
    · have := (h3 t).trans (List.nodup_iff_count_le_one.mp hd t)
      omega
    · have : titled t new = 0 := by
        rw [titled_zero]
        intro hm
        obtain ⟨i, hi, e⟩ := List.mem_map.mp hm
        have := (h2 i hi).2
        rw [e] at this
        exact h0 this
      omega

/-- C242: after any history, one session that is not killed and whose requests are answered leaves an issue for every readable plan; and from
then on no session changes the tracker. -/
theorem C242_complete (yaml : Txt → Yaml) (files : List File) (tracker : List Issue) (hist : List Session) (s : Session)
    (hs : ∀ k, s.replies k = .done) (hk : files.length ≤ s.killed) (later : List Session) :
    let full := after yaml files (hist.foldl (after yaml files) tracker) s
    (∀ f ∈ files, ∀ i, issueOf yaml f = .ok i → 1 ≤ titled i.title full) ∧
    later.foldl (after yaml files) full = full := by
  obtain ⟨tr, htr⟩ : ∃ tr, tr = hist.foldl (after yaml files) tracker := ⟨_, rfl⟩
  simp only [← htr]
  have h1 : ∀ f ∈ files, ∀ i, issueOf yaml f = .ok i → 1 ≤ titled i.title (after yaml files tr s) := by
    intro f hf i hi
    obtain ⟨new, q1, _, _, q4⟩ := loop_suffix yaml (tr.map Issue.title) s.replies (files.take s.killed) 0 tr
    have : after yaml files tr s = new ++ tr := q1
    rw [this, titled_append]
    by_cases hm : i.title ∈ tr.map Issue.title
    · have : titled i.title tr ≠ 0 := fun h => titled_zero.mp h hm
      omega
    · have hin := q4 hs f (by rw [List.take_of_length_le hk]; exact hf) i hi hm
      have : titled i.title new ≠ 0 := fun h => titled_zero.mp h (List.mem_map.mpr ⟨i, hin, rfl⟩)
      omega
  refine ⟨h1, ?_⟩
  generalize after yaml files tr s = full at h1
  induction later with
  | nil => rfl
  | cons u later ih =>
    simp only [List.foldl_cons]
    obtain ⟨new, q1, q2, _⟩ := C242_adds yaml files full u
    have : new = [] := by
      cases new with
      | nil => rfl
      | cons i new =>
        obtain ⟨⟨f, hf, e⟩, h0⟩ := q2 i (by simp)
        have := h1 f hf i e
        omega
    rw [q1, this, List.nil_append]
    exact ih

/-- C242, violated: two plans with the same title both become issues in one session, and stay; but if the first session is killed
between them, the second plan never becomes one. -/
theorem C242_twice (yaml : Txt → Yaml) (f g : File) (i j : Issue) (hf : issueOf yaml f = .ok i) (hg : issueOf yaml g = .ok j)
    (hij : i.title = j.title) (hne : i ≠ j) (tracker : List Issue) (h0 : titled i.title tracker = 0) (hist : List Session) :
    after yaml [f, g] tracker ⟨fun _ => .done, 2⟩ = j :: i :: tracker ∧
    hist.foldl (after yaml [f, g]) (after yaml [f, g] tracker ⟨fun _ => .done, 1⟩) = i :: tracker ∧
    j ∉ i :: tracker := by
  have hn := titled_zero.mp h0
  have hn' : j.title ∉ tracker.map Issue.title := hij ▸ hn
  refine ⟨?_, ?_, ?_⟩
  · simp [after, run, loop, step, hf, hg, hn, hn']
  · have h1 : after yaml [f, g] tracker ⟨fun _ => .done, 1⟩ = i :: tracker := by
      simp [after, run, loop, step, hf, hn]
    rw [h1]
    induction hist with
    | nil => rfl
    | cons s hist ih =>
      simp only [List.foldl_cons]
      obtain ⟨new, q1, q2, _⟩ := C242_adds yaml [f, g] (i :: tracker) s
      have : new = [] := by
        cases new with
        | nil => rfl
        | cons u new =>
          obtain ⟨⟨w, hw, e⟩, h0'⟩ := q2 u (by simp)
          exfalso
          have hu : u.title = i.title := by
            rcases List.mem_cons.mp hw with rfl | hw
            · rw [hf] at e; injection e with e; rw [e]
            · rw [List.mem_singleton.mp hw, hg] at e; injection e with e; rw [← e, hij]
          rw [hu, titled_zero] at h0'
          simp at h0'
      rw [q1, this, List.nil_append]
      exact ih
  · intro hm
    rcases List.mem_cons.mp hm with h | h
    · exact hne h.symm
    · exact hn' (List.mem_map.mpr ⟨j, h, rfl⟩)

/-- Non-trivial: two plans with different titles, one of them already in the tracker; a session killed after one file, then a full one. -/
example : let yaml : Txt → Yaml := fun fm => .mapping (.text fm) .absent []
    let f : File := ⟨['a'], ['1', '-', 'x'], ['-', '-', '-', 'F', '\n', '-', '-', '-', '\n', 'b']⟩
    let g : File := ⟨['a'], ['2', '-', 'y'], ['-', '-', '-', 'G', '\n', '-', '-', '-', '\n', 'c']⟩
    planTitles yaml [f, g] = [['A', ' ', '–', ' ', '1', ' ', 'F'], ['A', ' ', '–', ' ', '2', ' ', 'G']] ∧
    ([⟨fun _ => .lost, 1⟩, ⟨fun _ => .done, 2⟩] : List Session).foldl (after yaml [f, g]) [] =
      [⟨['A', ' ', '–', ' ', '2', ' ', 'G'], ['c'], []⟩, ⟨['A', ' ', '–', ' ', '1', ' ', 'F'], ['b'], []⟩] := by
  decide +kernel

/-! ### C243: titles -/

open Scripts

theorem lstrip_at {d : Char} (hd : isWs d = false) (a s : Txt) :
    (a ++ d :: s).dropWhile isWs = a.dropWhile isWs ++ d :: s := by
  induction a with
  | nil => simp [hd]
  | cons c a ih =>
    by_cases hc : isWs c = true
    · simp [hc, ih]
    · simp [hc]

theorem strip_at {d : Char} (hd : isWs d = false) (a s : Txt) :
    stripWs (a ++ d :: s) = a.dropWhile isWs ++ d :: (s.reverse.dropWhile isWs).reverse := by
  unfold stripWs
  rw [lstrip_at hd]
  rw [List.reverse_append, List.reverse_cons, List.append_assoc, List.singleton_append, lstrip_at hd]
  simp

theorem strip_append_ws (x w : Txt) (hw : AllWs w) : stripWs (x ++ w) = stripWs x := by
  obtain ⟨w1, w2, h1, h2, h3, h4⟩ := strip_decomp x
  rw [h3, List.append_assoc]
  rw [strip_pad w1 (stripWs x) (w2 ++ w) h1 (by
    intro c hc
    rcases List.mem_append.mp hc with h | h
    · exact h2 c h
    · exact hw c h) h4]
  rw [← h3]

theorem strip_rstrip (s : Txt) : stripWs ((s.reverse.dropWhile isWs).reverse) = stripWs s := by
  have h : s = (s.reverse.dropWhile isWs).reverse ++ (s.reverse.takeWhile isWs).reverse := by
    rw [← List.reverse_append, List.takeWhile_append_dropWhile, List.reverse_reverse]
  conv_rhs => rw [h]
  rw [strip_append_ws]
  intro c hc
  exact takeWhile_ws _ c (List.mem_reverse.mp hc)

theorem split_last (sep : Char) (a s : Txt) (h : sep ∉ s) : (Chars.split sep (a ++ sep :: s)).getLast? = some s := by
  induction a with
  | nil => rw [List.nil_append, Chars.split, if_pos rfl, Chars.split_of_not_mem sep s h]; rfl
  | cons c a ih =>
    rw [List.cons_append, Chars.split]
    split
    · rw [List.getLast?_cons, ih]; rfl
    · generalize hq : Chars.split sep (a ++ sep :: s) = q at ih
      cases q with
      | nil => exact absurd hq (Chars.split_ne_nil _ _)
      | cons p ps =>
        cases ps with
        | nil =>
          exfalso
          have h1 := Chars.join_split sep (a ++ sep :: s)
          rw [hq] at h1
          simp only [Chars.join] at h1
          simp only [List.getLast?_singleton, Option.some.injEq] at ih
          rw [ih] at h1
          have := congrArg List.length h1
          simp at this
          omega
        | cons p' ps => simpa using ih

theorem lastPart_plain {s : Txt} (h1 : '–' ∉ s) (h2 : '-' ∉ s) : lastPart s = s := by
  unfold lastPart; rw [if_neg h1, if_neg h2]

theorem mem_strip {c : Char} {s : Txt} (h : c ∈ stripWs s) : c ∈ s := by
  obtain ⟨w1, w2, _, _, h3, _⟩ := strip_decomp s
  rw [h3]; simp [h]

theorem mem_rstrip {c : Char} {s : Txt} (h : c ∈ (s.reverse.dropWhile isWs).reverse) : c ∈ s := by
  have := (List.dropWhile_sublist isWs (l := s.reverse)).subset (List.mem_reverse.mp h)
  exact List.mem_reverse.mp this

/-- C243: what comes before the last dash of a name does not enter the title - a plan's name `Fits – Trend` gives the title of `Trend` - so
two plans with the same number whose names differ only there have the same title. -/
theorem C243_last (dir stem a s : Txt) (d : Char) (hd : d = '–' ∨ (d = '-' ∧ '–' ∉ a)) (hs : s ≠ []) (h1 : '–' ∉ s) (h2 : '-' ∉ s) :
    title dir stem (a ++ d :: s) = title dir stem s := by
  have hw : isWs d = false := by rcases hd with rfl | ⟨rfl, _⟩ <;> decide +kernel
  have hl : lastPart (stripWs (a ++ d :: s)) = stripWs s := by
    rw [strip_at hw]
    unfold lastPart
    rcases hd with rfl | ⟨rfl, ha⟩
    · rw [if_pos (by simp), split_last _ _ _ (fun h => h1 (mem_rstrip h)), Option.getD_some, strip_rstrip]
    · have : '–' ∉ a.dropWhile isWs ++ '-' :: (s.reverse.dropWhile isWs).reverse := by
        simp only [List.mem_append, List.mem_cons]
        rintro (h | h | h)
        · exact ha ((List.dropWhile_sublist isWs).subset h)
        · exact absurd h (by decide)
        · exact h1 (mem_rstrip h)
      rw [if_neg this, if_pos (by simp), split_last _ _ _ (fun h => h2 (mem_rstrip h)), Option.getD_some, strip_rstrip]
  have hl' : lastPart (stripWs s) = stripWs s := lastPart_plain (fun h => h1 (mem_strip h)) (fun h => h2 (mem_strip h))
  unfold title
  simp only []
  rw [hl, hl', if_pos (by simp), if_pos hs]

/-- Non-trivial, and violated for words with a hyphen: `Non-linear fits` loses its first half. -/
example : title ['a'] ['1', '-', 'b'] ("Non-linear fits").toList = ("A – 1 linear fits").toList ∧
    title ['a'] ['1', '-', 'b'] ("Plan – Re-run").toList = ("A – 1 Re-run").toList := by decide +kernel

theorem digit_dash {c : Char} (h : c.isDigit = true) : c ≠ '-' ∧ c ≠ '_' ∧ isWs c = false := by
  refine ⟨?_, ?_, ?_⟩
  · rintro rfl; exact absurd h (by decide)
  · rintro rfl; exact absurd h (by decide)
  · cases hw : isWs c with
    | false => rfl
    | true =>
      unfold isWs at hw
      simp only [List.contains_iff_mem, List.mem_cons, List.not_mem_nil, or_false] at hw
      rcases hw with rfl | rfl | rfl | rfl | rfl | rfl | rfl | rfl | rfl | rfl <;> exact absurd h (by decide)

/-- Specification: a directory name made of these words, joined by hyphens or underscores -/
def Words (dir : Txt) (ws : List Txt) : Prop :=
  ws ≠ [] ∧ (dir.map fun c => if c = '_' then '-' else c) = Chars.join '-' ws ∧
    ∀ w ∈ ws, w ≠ [] ∧ ∀ c ∈ w, c ≠ '-' ∧ isWs c = false ∧ isWs c.toUpper = false ∧ isWs c.toLower = false

theorem dirTitle_words {dir : Txt} {ws : List Txt} (h : Words dir ws) : dirTitle dir = Chars.join ' ' (ws.map capitalize) := by
  unfold dirTitle splitName
  rw [h.2.1, Chars.split_join '-' ws h.1 (fun w hw hm => ((h.2.2 w hw).2 _ hm).1 rfl)]
  congr 2
  rw [List.filter_eq_self]
  intro w hw
  simpa using (h.2.2 w hw).1

theorem join_trimmed : ∀ (ws : List Txt), ws ≠ [] → (∀ w ∈ ws, w ≠ [] ∧ ∀ c ∈ w, isWs c = false) →
    Chars.join ' ' ws ≠ [] ∧ Trimmed (Chars.join ' ' ws) := by
  intro ws
  induction ws with
  | nil => intro h; exact absurd rfl h
  | cons w ws ih =>
    intro _ h
    obtain ⟨hw, hc⟩ := h w (by simp)
    cases ws with
    | nil =>
      refine ⟨hw, fun c h => hc c (List.mem_of_head? h), fun c h => hc c (List.mem_of_getLast? h)⟩
    | cons v vs =>
      obtain ⟨i1, i2⟩ := ih (by simp) (fun u hu => h u (List.mem_cons_of_mem _ hu))
      simp only [Chars.join]
      refine ⟨by simp, ?_, ?_⟩
      · intro c h
        cases w with
        | nil => exact absurd rfl hw
        | cons x w => simp at h; exact hc c (by simp [h])
      · intro c h
        apply i2.2 c
        rw [List.getLast?_append, List.getLast?_cons] at h
        cases hq : (Chars.join ' ' (v :: vs)).getLast? with
        | none => exact absurd (List.getLast?_eq_none_iff.mp hq) i1
        | some e => rw [hq] at h; simpa using h

theorem capitalize_ws {w : Txt} (h : w ≠ [] ∧ ∀ c ∈ w, c ≠ '-' ∧ isWs c = false ∧ isWs c.toUpper = false ∧ isWs c.toLower = false) :
    capitalize w ≠ [] ∧ ∀ c ∈ capitalize w, isWs c = false := by
  cases w with
  | nil => exact absurd rfl h.1
  | cons x w =>
    refine ⟨by simp [capitalize], ?_⟩
    intro c hc
    simp only [capitalize, List.mem_cons, List.mem_map] at hc
    rcases hc with rfl | ⟨e, he, rfl⟩
    · exact (h.2 x (by simp)).2.2.1
    · exact (h.2 e (by simp [he])).2.2.2

theorem dirTitle_trimmed {dir : Txt} {ws : List Txt} (h : Words dir ws) : dirTitle dir ≠ [] ∧ Trimmed (dirTitle dir) := by
  rw [dirTitle_words h]
  apply join_trimmed
  · simpa using h.1
  · intro w hw
    obtain ⟨v, hv, rfl⟩ := List.mem_map.mp hw
    exact capitalize_ws (h.2.2 v hv)

theorem trimmed_cat {a b : Txt} (m : Txt) (ha : a ≠ []) (hb : b ≠ []) (ta : Trimmed a) (tb : Trimmed b) : Trimmed (a ++ m ++ b) := by
  refine ⟨fun c h => ta.1 c ?_, fun c h => tb.2 c ?_⟩
  · cases a with
    | nil => exact absurd rfl ha
    | cons x a => simpa using h
  · rw [List.getLast?_append] at h
    cases hq : b.getLast? with
    | none => exact absurd (List.getLast?_eq_none_iff.mp hq) hb
    | some e => rw [hq] at h; simpa using h

/-- C243: the title of a plan with the number `num` in the directory of the words `ws`, and a name without dash that does not repeat the
directory: the words capitalised, an en dash, the number and the name. -/
theorem C243_shape (dir : Txt) (ws : List Txt) (hw : Words dir ws) (num rest name : Txt) (hn : num ≠ []) (hd : ∀ c ∈ num, c.isDigit = true)
    (u : Char) (hu : u = '-' ∨ u = '_') (h0 : name ≠ []) (h1 : '–' ∉ name) (h2 : '-' ∉ name) (ht : Trimmed name)
    (hrep : ¬ (Chars.join ' ' (ws.map capitalize)).map Char.toLower <+: name.map Char.toLower) :
    title dir (num ++ u :: rest) name = Chars.join ' ' (ws.map capitalize) ++ [' ', '–', ' '] ++ (num ++ ' ' :: name) := by
  have hnum : number (num ++ u :: rest) = num := by
    unfold number splitName
    have : (num ++ u :: rest).map (fun c => if c = '_' then '-' else c) = num ++ '-' :: rest.map (fun c => if c = '_' then '-' else c) := by
      rw [List.map_append, List.map_cons]
      congr 1
      · rw [List.map_congr_left (g := id) (fun c hc => by rw [if_neg (digit_dash (hd c hc)).2.1]; rfl), List.map_id]
      · rcases hu with rfl | rfl <;> simp
    rw [this, Chars.split_append '-' _ _ (fun h => (digit_dash (hd _ h)).1 rfl)]
    simp only []
    rw [if_pos ⟨hn, by simpa using hd⟩]
  have tnum : Trimmed num := ⟨fun c h => (digit_dash (hd c (List.mem_of_head? h))).2.2, fun c h => (digit_dash (hd c (List.mem_of_getLast? h))).2.2⟩
  obtain ⟨d1, d2⟩ := dirTitle_trimmed hw
  unfold title
  simp only []
  rw [if_pos h0, hnum, if_pos hn, strip_trimmed name ht, lastPart_plain h1 h2]
  have hdrop : dropDir (dirTitle dir) name = name := by
    unfold dropDir lower
    rw [if_neg]
    rw [List.isPrefixOf_iff_prefix, dirTitle_words hw]
    exact hrep
  have tp : Trimmed (num ++ ' ' :: name) := by
    have := trimmed_cat [' '] hn h0 tnum ht
    simpa using this
  rw [hdrop, strip_trimmed _ tp, strip_trimmed _ (trimmed_cat _ d1 (by simp) d2 tp), dirTitle_words hw]

/-- Non-trivial. -/
example : Words ("cicd-docs_update").toList [("cicd").toList, ("docs").toList, ("update").toList] ∧
    title ("cicd-docs_update").toList ("12_setup").toList ("First steps").toList = ("Cicd Docs Update – 12 First steps").toList := by
  refine ⟨⟨by simp, by decide +kernel, by decide +kernel⟩, by decide +kernel⟩

/-- C243: without a name the title has the parts of the file name. -/
theorem C243_unnamed (dir stem : Txt) (ws ss : List Txt) (hw : Words dir ws) (hs : Words stem ss) :
    title dir stem [] = Chars.join ' ' (ws.map capitalize) ++ [' ', '–', ' '] ++ Chars.join ' ' ss := by
  obtain ⟨d1, d2⟩ := dirTitle_trimmed hw
  have hsp : splitName stem = ss := by
    unfold splitName
    rw [hs.2.1, Chars.split_join '-' ss hs.1 (fun w hw hm => ((hs.2.2 w hw).2 _ hm).1 rfl)]
  obtain ⟨e1, e2⟩ := join_trimmed ss hs.1 (fun w hw => ⟨(hs.2.2 w hw).1, fun c hc => ((hs.2.2 w hw).2 c hc).2.1⟩)
  unfold title
  simp only []
  rw [if_neg (by simp), hsp, strip_trimmed _ (trimmed_cat _ d1 e1 d2 e2), dirTitle_words hw]

/-- C243: whatever the name, the title begins with the words of the directory and the dash. -/
theorem C243_directory (dir stem name : Txt) (ws : List Txt) (hw : Words dir ws) :
    Chars.join ' ' (ws.map capitalize) ++ [' ', '–'] <+: title dir stem name := by
  obtain ⟨d1, d2⟩ := dirTitle_trimmed hw
  rw [← dirTitle_words hw]
  unfold title
  simp only []
  generalize (if name ≠ [] then _ else _ : Txt) = part
  have : dirTitle dir ++ [' ', '–', ' '] ++ part = (dirTitle dir ++ [' ']) ++ '–' :: (' ' :: part) := by simp
  rw [this, strip_at (by decide +kernel)]
  have hdw : (dirTitle dir ++ [' ']).dropWhile isWs = dirTitle dir ++ [' '] := by
    apply dropWhile_head
    intro c h
    apply d2.1 c
    cases hq : dirTitle dir with
    | nil => exact absurd hq d1
    | cons x r => rw [hq] at h; simpa using h
  rw [hdw]
  exact ⟨(((' ' :: part).reverse.dropWhile isWs).reverse), by simp⟩

/-! ### C244: reading a plan, and the repository -/

theorem split_dashes : ∀ (fm rest : Txt), ¬ dashes <:+: fm → fm.getLast? ≠ some '-' → splitFirst dashes (fm ++ dashes ++ rest) = some (fm, rest) := by
  intro fm
  induction fm with
  | nil => intro rest _ _; exact splitFirst_here dashes rest
  | cons c fm ih =>
    intro rest h1 h2
    rw [List.cons_append, List.cons_append, splitFirst, if_neg, ih rest (fun h => h1 (h.trans (List.suffix_cons c fm).isInfix)) ?_]
    · rfl
    · cases fm with
      | nil => simp
      | cons x fm => simpa using h2
    · rw [List.isPrefixOf_iff_prefix]
      intro hp
      match fm, h1, h2, hp with
      | [], _, h2, hp =>
        simp [dashes] at hp h2
        exact h2 hp.symm
      | [x], _, h2, hp =>
        simp [dashes] at hp h2
        exact h2 hp.2.symm
      | x :: y :: fm, h1, _, hp =>
        apply h1
        simp [dashes] at hp
        obtain ⟨rfl, rfl, rfl⟩ := hp
        exact ⟨[], fm, rfl⟩

theorem context_noBorder : NoBorder context := by
  intro k hk h0
  have : k ∈ List.range 12 := by simpa [context] using hk
  simp only [← List.isPrefixOf_iff_prefix]
  have key : ∀ k ∈ List.range 12, 0 < k → ¬ (context.drop k).isPrefixOf context = true := by decide +kernel
  exact key k this h0

theorem load_fm (yaml : Txt → Yaml) (fm rest : Txt) (h1 : ¬ dashes <:+: fm) (h2 : fm.getLast? ≠ some '-') (name about : Field)
    (labels : List Txt) (hy : yaml fm = .mapping name about labels) :
    load yaml (dashes ++ fm ++ dashes ++ rest) = (do
      let n ← name.strip
      let a ← about.strip
      .ok ⟨n, a, labels, bodyOf rest⟩) := by
  unfold load
  rw [if_pos (by rw [List.isPrefixOf_iff_prefix]; exact ⟨fm ++ dashes ++ rest, by simp⟩)]
  have : (dashes ++ fm ++ dashes ++ rest).drop 3 = fm ++ dashes ++ rest := rfl
  rw [this, split_dashes fm rest h1 h2]
  simp only [hy]

/-- C244: a plan written as `---`, front matter, `---`, text is read back: the YAML parser gets exactly the front matter, name and
description lose the blanks around them, the labels are untouched, and the body is the text from its first context heading on. -/
theorem C244_read (yaml : Txt → Yaml) (fm pre post : Txt) (h1 : ¬ dashes <:+: fm) (h2 : fm.getLast? ≠ some '-') (name about : Txt)
    (labels : List Txt) (hy : yaml fm = .mapping (.text name) (.text about) labels) (hpre : ¬ context <:+: pre) :
    load yaml (dashes ++ fm ++ dashes ++ (pre ++ context ++ post)) = .ok ⟨stripWs name, stripWs about, labels, context ++ post⟩ := by
  rw [load_fm yaml fm _ h1 h2 _ _ _ hy]
  simp only [Field.strip, bind, Except.bind, bodyOf]
  rw [splitFirst_first context context_noBorder pre post hpre]

/-- C244: without a context heading the body is the whole text behind the front matter, less the line breaks before it; a plan without
name or description has empty ones. -/
theorem C244_plain (yaml : Txt → Yaml) (fm k body : Txt) (h1 : ¬ dashes <:+: fm) (h2 : fm.getLast? ≠ some '-') (about : Field)
    (hab : about = .absent ∨ ∃ a, about = .text a) (labels : List Txt) (hy : yaml fm = .mapping .absent about labels) (hc : ¬ context <:+: k ++ body)
    (hk : ∀ c ∈ k, c = '\n') (hb : body.head? ≠ some '\n') :
    ∃ a, load yaml (dashes ++ fm ++ dashes ++ (k ++ body)) = .ok ⟨[], a, labels, body⟩ := by
  rw [load_fm yaml fm _ h1 h2 _ _ _ hy]
  have hbody : bodyOf (k ++ body) = body := by
    unfold bodyOf
    rw [(splitFirst_none_iff context (k ++ body)).mpr hc]
    simp only []
    clear hc
    induction k with
    | nil =>
      cases body with
      | nil => rfl
      | cons c body =>
        have : (c == '\n') = false := by simpa using hb
        simp [this]
    | cons c k ih =>
      have := hk c (by simp)
      subst this
      simp only [List.cons_append, List.dropWhile_cons, beq_self_eq_true, if_true]
      exact ih (fun c h => hk c (by simp [h]))
  rcases hab with rfl | ⟨a, rfl⟩
  · exact ⟨[], by simp only [Field.strip, bind, Except.bind, hbody]⟩
  · exact ⟨stripWs a, by simp only [Field.strip, bind, Except.bind, hbody]⟩

/-- C244: a file that does not begin with `---`, or has no second `---`, is an error; so is front matter that is not a mapping and a name
that is not text.  (`run` turns each into a row of the summary and goes on: C242.) -/
theorem C244_errors (yaml : Txt → Yaml) (text : Txt) :
    (¬ dashes <+: text → load yaml text = .error .valueError) ∧
    (∀ t, text = dashes ++ t → ¬ dashes <:+: t → load yaml text = .error .valueError) ∧
    ∀ fm rest, text = dashes ++ fm ++ dashes ++ rest → ¬ dashes <:+: fm → fm.getLast? ≠ some '-' →
      (yaml fm = .noMapping → load yaml text = .error .attributeError) ∧
      (yaml fm = .invalid → load yaml text = .error .other) ∧
      ∀ about labels, yaml fm = .mapping .other about labels → load yaml text = .error .attributeError := by
  refine ⟨?_, ?_, ?_⟩
  · intro h
    unfold load
    rw [if_neg (by rw [List.isPrefixOf_iff_prefix]; exact h)]
  · rintro t rfl h
    unfold load
    rw [if_pos (by rw [List.isPrefixOf_iff_prefix]; exact ⟨t, rfl⟩)]
    have : (dashes ++ t).drop 3 = t := rfl
    rw [this, (splitFirst_none_iff dashes t).mpr h]
  · rintro fm rest rfl h1 h2
    have hd : (dashes ++ fm ++ dashes ++ rest).drop 3 = fm ++ dashes ++ rest := rfl
    have hp : dashes.isPrefixOf (dashes ++ fm ++ dashes ++ rest) = true := by
      rw [List.isPrefixOf_iff_prefix]; exact ⟨fm ++ dashes ++ rest, by simp⟩
    refine ⟨fun hy => ?_, fun hy => ?_, fun about labels hy => ?_⟩
    · unfold load; rw [if_pos hp, hd, split_dashes fm rest h1 h2]; simp only [hy]
    · unfold load; rw [if_pos hp, hd, split_dashes fm rest h1 h2]; simp only [hy]
    · rw [load_fm yaml fm _ h1 h2 _ _ _ hy]; rfl

/-- C244, violated: three dashes inside the front matter - in a name, or a line of dashes - end it: the rest of the front matter, its
closing dashes and all, goes to the body (or is dropped before a context heading). -/
theorem C244_cut (yaml : Txt → Yaml) (x y rest : Txt) (h1 : ¬ dashes <:+: x) (h2 : x.getLast? ≠ some '-') (name about : Txt) (labels : List Txt)
    (hy : yaml x = .mapping (.text name) (.text about) labels) (hc : ¬ context <:+: y ++ dashes ++ rest) (hb : y.head? ≠ some '\n') (hne : y ≠ []) :
    load yaml (dashes ++ (x ++ dashes ++ y) ++ dashes ++ rest) = .ok ⟨stripWs name, stripWs about, labels, y ++ dashes ++ rest⟩ := by
  have : dashes ++ (x ++ dashes ++ y) ++ dashes ++ rest = dashes ++ x ++ dashes ++ (y ++ dashes ++ rest) := by simp
  rw [this, load_fm yaml x _ h1 h2 _ _ _ hy]
  simp only [Field.strip, bind, Except.bind, bodyOf]
  rw [(splitFirst_none_iff context _).mpr hc]
  cases y with
  | nil => exact absurd rfl hne
  | cons c y =>
    have : (c == '\n') = false := by simpa using hb
    simp [this]

/-- Non-trivial. -/
example : load (fun fm => .mapping (.text fm) .absent [['b', 'u', 'g']]) ("---\n  Fit\n---\nnotes\n").toList =
    .ok ⟨("Fit").toList, [], [['b', 'u', 'g']], ("notes\n").toList⟩ := by decide +kernel

theorem stripSlash_id {s : Txt} (h1 : s.head? ≠ some '/') (h2 : s.getLast? ≠ some '/') : stripSlash s = s := by
  have key : ∀ s : Txt, s.head? ≠ some '/' → s.dropWhile (· == '/') = s := by
    intro s h
    cases s with
    | nil => rfl
    | cons c s =>
      have : (c == '/') = false := by simpa using h
      simp [this]
  unfold stripSlash
  rw [key s h1, key s.reverse (by rw [List.head?_reverse]; exact h2), List.reverse_reverse]

/-- Specification: a name in a URL -/
def Name (s : Txt) : Prop := s ≠ [] ∧ '/' ∉ s ∧ ':' ∉ s

theorem path_ends {o r : Txt} (ho : Name o) (hr : Name r) : (o ++ '/' :: r).head? ≠ some '/' ∧ (o ++ '/' :: r).getLast? ≠ some '/' := by
  constructor
  · cases o with
    | nil => exact absurd rfl ho.1
    | cons c o => intro h; simp at h; exact ho.2.1 (by simp [h])
  · intro h
    rw [List.getLast?_append, List.getLast?_cons] at h
    cases hq : r.getLast? with
    | none => exact absurd (List.getLast?_eq_none_iff.mp hq) hr.1
    | some e =>
      rw [hq] at h
      simp at h
      rw [h] at hq
      exact hr.2.1 (List.mem_of_getLast? hq)

theorem ownerRepo_path {o r : Txt} (ho : Name o) (hr : Name r) : Chars.split '/' (stripSlash (o ++ '/' :: r)) = [o, r] := by
  obtain ⟨h1, h2⟩ := path_ends ho hr
  rw [stripSlash_id h1 h2, Chars.split_append '/' o r ho.2.1, Chars.split_of_not_mem '/' r hr.2.1]

/-- C244: the owner and the repository of a remote `git@host:owner/repo` and `…github.com/owner/repo`, with or without `.git`. -/
theorem C244_remote (o r host pre : Txt) (ho : Name o) (hr : Name r) (hg : ¬ dotGit <:+ r) (hhost : ':' ∉ host)
    (hpre : ¬ github <:+: pre) (hp2 : ¬ gitAt <+: pre ++ github) (dg : Txt) (hdg : dg = [] ∨ dg = dotGit) :
    ownerRepo (gitAt ++ host ++ ':' :: (o ++ '/' :: r ++ dg)) = .ok (some (o, r)) ∧
    ownerRepo (pre ++ github ++ (o ++ '/' :: r ++ dg)) = .ok (some (o, r)) := by
  have hcut : (if dotGit.isSuffixOf (o ++ '/' :: r ++ dg) then (o ++ '/' :: r ++ dg).take ((o ++ '/' :: r ++ dg).length - 4)
      else o ++ '/' :: r ++ dg) = o ++ '/' :: r := by
    rcases hdg with rfl | rfl
    · rw [List.append_nil, if_neg]
      rw [List.isSuffixOf_iff_suffix]
      intro h
      apply hg
      have h3 : r <:+ o ++ '/' :: r := ⟨o ++ ['/'], by simp⟩
      rcases List.suffix_or_suffix_of_suffix h h3 with q | q
      · exact q
      · exfalso
        by_cases hl : r.length = dotGit.length
        · exact hg ((q.eq_of_length hl) ▸ List.suffix_refl _)
        · -- then the slash lies within the ending
          have hle := q.length_le
          have h4 : '/' :: r <:+ o ++ '/' :: r := ⟨o, rfl⟩
          have h5 : '/' :: r <:+ dotGit := List.suffix_of_suffix_length_le h4 h (by simp; omega)
          have : '/' ∈ dotGit := h5.subset (by simp)
          exact absurd this (by decide)
    · rw [if_pos (by rw [List.isSuffixOf_iff_suffix]; exact ⟨_, rfl⟩)]
      rw [List.length_append, show dotGit.length = 4 from rfl, Nat.add_sub_cancel]
      exact List.take_left
  have hg1 : ∀ x : Txt, gitAt.isPrefixOf (gitAt ++ x) = true := fun x => by
    rw [List.isPrefixOf_iff_prefix]; exact List.prefix_append _ _
  constructor
  · unfold ownerRepo
    have hs : splitFirst [':'] (gitAt ++ host ++ ':' :: (o ++ '/' :: r ++ dg)) = some (gitAt ++ host, o ++ '/' :: r ++ dg) := by
      have := splitFirst_at ':' [] (gitAt ++ host) (o ++ '/' :: r ++ dg) (by
        rw [List.mem_append]; rintro (h | h)
        · exact absurd h (by decide)
        · exact hhost h)
      simpa using this
    rw [if_pos (by rw [List.append_assoc]; exact hg1 _), hs]
    simp only [bind, Except.bind, hcut, ownerRepo_path ho hr]
  · unfold ownerRepo
    have hnp : ¬ gitAt.isPrefixOf (pre ++ github ++ (o ++ '/' :: r ++ dg)) = true := by
      rw [List.isPrefixOf_iff_prefix]
      intro h
      exact hp2 (List.prefix_of_prefix_length_le h (List.prefix_append _ _) (by simp [gitAt, github]))
    have hs := splitFirst_first github (by
      intro k hk h0
      have : k ∈ List.range 11 := by simpa [github] using hk
      simp only [← List.isPrefixOf_iff_prefix]
      have key : ∀ k ∈ List.range 11, 0 < k → ¬ (github.drop k).isPrefixOf github = true := by decide +kernel
      exact key k this h0) pre (o ++ '/' :: r ++ dg) hpre
    rw [if_neg hnp, hs]
    simp only [bind, Except.bind, hcut, ownerRepo_path ho hr]

/-- C244, violated: a trailing slash behind `.git` leaves the ending in the name of the repository; a remote elsewhere in the style of
`https` is not recognised, while any `git@` host is. -/
theorem C244_remote_slash (o r host : Txt) (ho : Name o) (hr : Name r) (hhost : ':' ∉ host) :
    ownerRepo (gitAt ++ host ++ ':' :: (o ++ '/' :: (r ++ dotGit) ++ ['/'])) = .ok (some (o, r ++ dotGit)) := by
  unfold ownerRepo
  have hs : splitFirst [':'] (gitAt ++ host ++ ':' :: (o ++ '/' :: (r ++ dotGit) ++ ['/'])) = some (gitAt ++ host, o ++ '/' :: (r ++ dotGit) ++ ['/']) := by
    have := splitFirst_at ':' [] (gitAt ++ host) (o ++ '/' :: (r ++ dotGit) ++ ['/']) (by
      rw [List.mem_append]; rintro (h | h)
      · exact absurd h (by decide)
      · exact hhost h)
    simpa using this
  rw [if_pos (by rw [List.append_assoc, List.isPrefixOf_iff_prefix]; exact List.prefix_append _ _), hs]
  have hr' : Name (r ++ dotGit) := by
    refine ⟨by simp [dotGit], ?_, ?_⟩
    · rw [List.mem_append]; rintro (h | h)
      · exact hr.2.1 h
      · exact absurd h (by decide)
    · rw [List.mem_append]; rintro (h | h)
      · exact hr.2.2 h
      · exact absurd h (by decide)
  have hsuf : ¬ dotGit.isSuffixOf (o ++ '/' :: (r ++ dotGit) ++ ['/']) = true := by
    rw [List.isSuffixOf_iff_suffix]
    rintro ⟨t, ht⟩
    have := congrArg List.getLast? ht
    rw [List.getLast?_append, List.getLast?_append] at this
    simp [dotGit] at this
  have hss : stripSlash (o ++ '/' :: (r ++ dotGit) ++ ['/']) = o ++ '/' :: (r ++ dotGit) := by
    obtain ⟨e1, e2⟩ := path_ends ho hr'
    obtain ⟨z, hz⟩ : ∃ z, z = o ++ '/' :: (r ++ dotGit) := ⟨_, rfl⟩
    rw [← hz] at e1 e2 ⊢
    have := stripSlash_id e1 e2
    unfold stripSlash at this ⊢
    cases z with
    | nil => rfl
    | cons c z =>
      have hc : (c == '/') = false := by simpa using e1
      simp only [List.cons_append, List.dropWhile_cons, hc] at this ⊢
      simp only [Bool.false_eq_true, if_false] at this ⊢
      rw [← List.cons_append, List.reverse_append]
      simpa using this
  simp only [bind, Except.bind]
  rw [if_neg hsuf, hss]
  rw [Chars.split_append '/' o _ ho.2.1, Chars.split_of_not_mem '/' _ hr'.2.1]

/-- Non-trivial. -/
example : ownerRepo ("git@github.com:blalterman/SolarWindPy.git").toList = .ok (some (("blalterman").toList, ("SolarWindPy").toList)) ∧
    ownerRepo ("https://github.com/blalterman/SolarWindPy").toList = .ok (some (("blalterman").toList, ("SolarWindPy").toList)) ∧
    ownerRepo ("https://gitlab.com/blalterman/SolarWindPy").toList = .ok none := by decide +kernel

/-- C243: a name that begins with the title of the directory, in any case, and blanks: title, en dash, number and the rest of the name. -/
theorem C243_repeat (dir : Txt) (ws : List Txt) (hw : Words dir ws) (num rest d sp s : Txt) (hn : num ≠ []) (hd : ∀ c ∈ num, c.isDigit = true)
    (u : Char) (hu : u = '-' ∨ u = '_') (hrep : d.map Char.toLower = (Chars.join ' ' (ws.map capitalize)).map Char.toLower)
    (hsp : ∀ c ∈ sp, c = ' ') (h0 : s ≠ []) (h1 : '–' ∉ d ++ sp ++ s) (h2 : '-' ∉ d ++ sp ++ s) (ht : Trimmed (d ++ sp ++ s)) (hts : Trimmed s) :
    title dir (num ++ u :: rest) (d ++ sp ++ s) = Chars.join ' ' (ws.map capitalize) ++ [' ', '–', ' '] ++ (num ++ ' ' :: s) := by
  have hnum : number (num ++ u :: rest) = num := by
    unfold number splitName
    have : (num ++ u :: rest).map (fun c => if c = '_' then '-' else c) = num ++ '-' :: rest.map (fun c => if c = '_' then '-' else c) := by
      rw [List.map_append, List.map_cons]
      congr 1
      · rw [List.map_congr_left (g := id) (fun c hc => by rw [if_neg (digit_dash (hd c hc)).2.1]; rfl), List.map_id]
      · rcases hu with rfl | rfl <;> simp
    rw [this, Chars.split_append '-' _ _ (fun h => (digit_dash (hd _ h)).1 rfl)]
    simp only []
    rw [if_pos ⟨hn, by simpa using hd⟩]
  have tnum : Trimmed num := ⟨fun c h => (digit_dash (hd c (List.mem_of_head? h))).2.2, fun c h => (digit_dash (hd c (List.mem_of_getLast? h))).2.2⟩
  obtain ⟨d1, d2⟩ := dirTitle_trimmed hw
  have hlen : d.length = (dirTitle dir).length := by
    rw [dirTitle_words hw]
    have := congrArg List.length hrep
    simpa using this
  unfold title
  simp only []
  rw [if_pos (by simp [h0]), hnum, if_pos hn, strip_trimmed _ ht, lastPart_plain h1 h2]
  have hdrop : dropDir (dirTitle dir) (d ++ sp ++ s) = s := by
    unfold dropDir lower
    rw [if_pos, ← hlen, List.append_assoc, List.drop_left]
    · have g1 : '–' ∉ s := fun h => h1 (List.mem_append_right _ h)
      have g2 : '-' ∉ s := fun h => h2 (List.mem_append_right _ h)
      clear h1 h2 ht
      induction sp with
      | nil =>
        cases s with
        | nil => rfl
        | cons c s =>
          rw [List.nil_append, List.dropWhile_cons_of_neg]
          simp only [Bool.or_eq_true, beq_iff_eq, not_or]
          have hc := hts.1 c rfl
          refine ⟨⟨?_, ?_⟩, ?_⟩
          · rintro rfl; exact absurd hc (by decide +kernel)
          · rintro rfl; exact g2 List.mem_cons_self
          · rintro rfl; exact g1 List.mem_cons_self
      | cons c sp ih =>
        have : c = ' ' := hsp c (by simp)
        rw [List.cons_append, List.dropWhile_cons_of_pos (by simp [this])]
        exact ih (fun x hx => hsp x (by simp [hx]))
    · rw [List.isPrefixOf_iff_prefix, dirTitle_words hw, ← hrep, List.append_assoc, List.map_append]
      exact List.prefix_append _ _
  have tp : Trimmed (num ++ ' ' :: s) := by
    have := trimmed_cat [' '] hn h0 tnum hts
    simpa using this
  rw [hdrop, strip_trimmed _ tp, strip_trimmed _ (trimmed_cat _ d1 (by simp) d2 tp), dirTitle_words hw]

/-- Non-trivial. -/
example : title ("cicd-docs").toList ("12_setup").toList ("CICD docs  First steps").toList = ("Cicd Docs – 12 First steps").toList := by
  decide +kernel

/-- C244: a remote whose path has fewer or more than two parts is not recognised. -/
theorem C244_remote_parts (o r x host : Txt) (ho : Name o) (hr : Name r) (hhost : ':' ∉ host) (hx : x ≠ []) (hxl : x.getLast? ≠ some '/')
    (hxg : ¬ dotGit <:+ o ++ '/' :: (r ++ '/' :: x)) (hog : ¬ dotGit <:+ o) :
    ownerRepo (gitAt ++ host ++ ':' :: (o ++ '/' :: (r ++ '/' :: x))) = .ok none ∧ ownerRepo (gitAt ++ host ++ ':' :: o) = .ok none := by
  have hs : ∀ p, splitFirst [':'] (gitAt ++ host ++ ':' :: p) = some (gitAt ++ host, p) := by
    intro p
    have := splitFirst_at ':' [] (gitAt ++ host) p (by
      rw [List.mem_append]; rintro (h | h)
      · exact absurd h (by decide)
      · exact hhost h)
    simpa using this
  have hh : o.head? ≠ some '/' := fun h => ho.2.1 (List.mem_of_head? h)
  constructor
  · unfold ownerRepo
    rw [if_pos (by rw [List.append_assoc, List.isPrefixOf_iff_prefix]; exact List.prefix_append _ _), hs]
    simp only [bind, Except.bind]
    rw [if_neg (by rw [List.isSuffixOf_iff_suffix]; exact hxg), stripSlash_id]
    · rw [Chars.split_append '/' o _ ho.2.1, Chars.split_append '/' r _ hr.2.1]
      cases hq : Chars.split '/' x with
      | nil => exact absurd hq (Chars.split_ne_nil _ _)
      | cons a l => rfl
    · cases o with
      | nil => exact absurd rfl ho.1
      | cons c o => simpa using hh
    · rw [List.getLast?_append, List.getLast?_cons, List.getLast?_append, List.getLast?_cons]
      cases hq : x.getLast? with
      | none => exact absurd (List.getLast?_eq_none_iff.mp hq) hx
      | some e => rw [hq] at hxl; simpa using hxl
  · unfold ownerRepo
    rw [if_pos (by rw [List.append_assoc, List.isPrefixOf_iff_prefix]; exact List.prefix_append _ _), hs]
    simp only [bind, Except.bind]
    rw [if_neg (by rw [List.isSuffixOf_iff_suffix]; exact hog), stripSlash_id hh (fun h => ho.2.1 (List.mem_of_getLast? h)),
      Chars.split_of_not_mem '/' o ho.2.1]

end Plans
end SW
