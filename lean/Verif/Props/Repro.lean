import Verif.Repro
import Verif.Props.Scripts2

/-!
# What the reproducibility record says about the code that ran (C220)
-/

namespace SW.Repro

open Scripts (stripWs isWs AllWs Trimmed)

/-! ### specification -/

/-- `r` lives in the directory `q`, `p` is `q` or below it, and no directory in between holds a repository of its own. -/
def Encloses (w : World) (p : Path) (r : Repo) : Prop :=
  ∃ inner q, p = inner ++ q ∧ w.repo q = some r ∧ ∀ a b, inner = a ++ b → b ≠ [] → w.repo (b ++ q) = none

/-- no directory from `p` upwards holds a repository -/
def Outside (w : World) (p : Path) : Prop := ∀ a q, p = a ++ q → w.repo q = none

/-- a git object or reference name: not empty and without white space -/
def Name (s : Text) : Prop := s ≠ [] ∧ ∀ c ∈ s, isWs c = false

/-- the names stored in a repository are names -/
structure Repo.Ok (r : Repo) : Prop where
  branch : ∀ b s, (b, s) ∈ r.branches → Name b ∧ Name s
  head : ∀ s, r.head = .detached s → Name s

/-- `s` is the commit checked out: `HEAD` itself when detached, else the tip of the current branch. -/
def CheckedOut (r : Repo) (s : Text) : Prop :=
  r.head = .detached s ∨ ∃ b, r.head = .onBranch b ∧ r.branches.lookup b = some s

/-- what a branch is called in the answer -/
inductive Called (r : Repo) : Text → Prop where
  | detached (s) : r.head = .detached s → Called r "HEAD".toList
  | plain (b) : r.head = .onBranch b → b ∉ r.tags → Called r b
  | shared (b) : r.head = .onBranch b → b ∈ r.tags → Called r ("heads/".toList ++ b)

/-- a tracked file whose working copy was edited or deleted without being staged -/
def Unstaged (r : Repo) : Prop := ∃ f c, r.index.lookup f = some c ∧ r.work.lookup f ≠ some c

/-- the index and the tracked working files are those of the tree -/
def CleanOn (r : Repo) (t : Tree) : Prop :=
  (∀ f, r.index.lookup f = t.lookup f) ∧ ∀ f c, t.lookup f = some c → r.work.lookup f = some c

/-- a usable directory on a machine with git -/
def Ready (w : World) (p : Path) : Prop := w.entry p = .dir ∧ w.git = true

/-! ### the nearest repository -/

theorem nearest_some (w : World) (r : Repo) : ∀ (p : Path), nearest w p = some r ↔ Encloses w p r
  | [] => by
    constructor
    · intro h
      exact ⟨[], [], rfl, h, fun a b hab hb => absurd (List.append_eq_nil_iff.1 hab.symm).2 hb⟩
    · rintro ⟨inner, q, hp, hq, -⟩
      have := List.append_eq_nil_iff.1 hp.symm
      rw [this.2] at hq; exact hq
  | d :: ds => by
    have ih := nearest_some w r ds
    constructor
    · intro h
      unfold nearest at h
      cases hr : w.repo (d :: ds) with
      | some r' =>
        rw [hr] at h
        refine ⟨[], d :: ds, rfl, by rw [hr]; exact h, fun a b hab hb => absurd (List.append_eq_nil_iff.1 hab.symm).2 hb⟩
      | none =>
        rw [hr] at h
        obtain ⟨inner, q, hp, hq, hn⟩ := ih.1 h
        refine ⟨d :: inner, q, by rw [hp]; rfl, hq, ?_⟩
        intro a b hab hb
        cases a with
        | nil =>
          rw [List.nil_append] at hab
          rw [← hab, List.cons_append, ← hp]; exact hr
        | cons x a =>
          rw [List.cons_append, List.cons.injEq] at hab
          exact hn a b hab.2 hb
    · rintro ⟨inner, q, hp, hq, hn⟩
      unfold nearest
      cases inner with
      | nil =>
        rw [List.nil_append] at hp
        rw [hp, hq]
      | cons x inner =>
        rw [List.cons_append, List.cons.injEq] at hp
        have h0 : w.repo (d :: ds) = none := by
          have := hn [] (x :: inner) rfl (by simp)
          rw [hp.1, hp.2]; exact this
        rw [h0]
        exact ih.2 ⟨inner, q, hp.2, hq, fun a b hab hb => hn (x :: a) b (by rw [hab]; rfl) hb⟩

theorem nearest_none (w : World) : ∀ (p : Path), nearest w p = none ↔ Outside w p
  | [] => by
    constructor
    · intro h a q hp
      rw [(List.append_eq_nil_iff.1 hp.symm).2]; exact h
    · intro h; exact h [] [] rfl
  | d :: ds => by
    have ih := nearest_none w ds
    unfold nearest
    cases hr : w.repo (d :: ds) with
    | some r =>
      refine ⟨fun h => by simp at h, fun h => ?_⟩
      have := h [] (d :: ds) rfl
      rw [hr] at this; simp at this
    | none =>
      refine ⟨fun h a q hp => ?_, fun h => ih.2 (fun a q hp => h (d :: a) q (by rw [hp]; rfl))⟩
      cases a with
      | nil => rw [List.nil_append] at hp; rw [← hp]; exact hr
      | cons x a =>
        rw [List.cons_append, List.cons.injEq] at hp
        exact ih.1 h a q hp.2

theorem encloses_unique (w : World) (p : Path) (r r' : Repo) (h : Encloses w p r) (h' : Encloses w p r') : r = r' :=
  Option.some.inj (((nearest_some w r p).2 h).symm.trans ((nearest_some w r' p).2 h'))

/-! ### the commands -/

theorem strip_line (s : Text) (h : Name s) : stripWs (s ++ ['\n']) = s := by
  have := Scripts.strip_pad [] s ['\n'] (by simp [AllWs]) (by simp [AllWs, isWs])
    ⟨fun c hc => h.2 c (List.mem_of_mem_head? hc), fun c hc => h.2 c (List.mem_of_getLast? hc)⟩
  simpa using this

theorem tip_iff (r : Repo) (s : Text) : r.tip = some s ↔ CheckedOut r s := by
  unfold Repo.tip CheckedOut
  cases h : r.head with
  | onBranch b => simp
  | detached t => simp

theorem lookup_mem' {s : Text} {b : Text} : ∀ {l : List (Text × Text)}, l.lookup b = some s → (b, s) ∈ l
  | (x, y) :: l, h => by
    by_cases hb : b = x
    · subst hb
      simp only [List.lookup, beq_self_eq_true, Option.some.injEq] at h
      rw [h]; simp
    · have hf : (b == x) = false := by simpa using hb
      simp only [List.lookup, hf] at h
      exact List.mem_cons_of_mem _ (lookup_mem' h)

theorem tip_name (r : Repo) (hr : r.Ok) (s : Text) (h : CheckedOut r s) : Name s := by
  rcases h with h | ⟨b, -, hb⟩
  · exact hr.head s h
  · exact (hr.branch b s (lookup_mem' hb)).2

theorem lookup_none_of_not_mem {b : Text} : ∀ {l : List (Text × Text)}, (∀ s, (b, s) ∉ l) → l.lookup b = none
  | [], _ => rfl
  | (x, y) :: l, h => by
    have hf : (b == x) = false := by
      have : b ≠ x := by rintro rfl; exact h y (by simp)
      simpa using this
    simp only [List.lookup, hf]
    exact lookup_none_of_not_mem (fun s hs => h s (List.mem_cons_of_mem _ hs))

theorem lookup_isSome_of_mem {b s : Text} {l : List (Text × Text)} (h : (b, s) ∈ l) : ∃ t, l.lookup b = some t := by
  cases hl : l.lookup b with
  | some t => exact ⟨t, rfl⟩
  | none =>
    exfalso
    induction l with
    | nil => simp at h
    | cons e l ih =>
      obtain ⟨x, y⟩ := e
      by_cases hb : b = x
      · subst hb; simp [List.lookup] at hl
      · have hf : (b == x) = false := by simpa using hb
        simp only [List.lookup, hf] at hl
        rcases List.mem_cons.1 h with h | h
        · exact hb (by simp only [Prod.mk.injEq] at h; exact h.1)
        · exact ih h hl

theorem any_iff_unstaged (r : Repo) :
    r.index.any (fun e => r.work.lookup e.1 != r.index.lookup e.1) = true ↔ Unstaged r := by
  rw [List.any_eq_true]
  constructor
  · rintro ⟨⟨f, c⟩, hm, hne⟩
    obtain ⟨t, ht⟩ := lookup_isSome_of_mem hm
    refine ⟨f, t, ht, fun hw => ?_⟩
    simp [ht, hw] at hne
  · rintro ⟨f, c, hi, hw⟩
    refine ⟨(f, c), lookup_mem' hi, ?_⟩
    simpa [hi] using hw

/-- the whole of `spawn` on a usable directory -/
theorem spawn_ready (w : World) (p : Path) (c : Cmd) (h : Ready w p) : spawn w p c = .ok (exec w p c) := by
  unfold spawn; rw [h.1]; simp [h.2]

theorem check_rev_some (w : World) (p : Path) (h : Ready w p) (r : Repo) (hr : Encloses w p r) (s : Text) (hs : CheckedOut r s)
    (hn : Name s) : checkOutput w p .revParse = .ok s := by
  unfold checkOutput
  rw [spawn_ready w p _ h]
  simp only [exec, (nearest_some w r p).2 hr, Option.bind, (tip_iff r s).2 hs, if_true, strip_line s hn]

theorem check_rev_none (w : World) (p : Path) (h : Ready w p) (hn : (nearest w p).bind Repo.tip = none) :
    checkOutput w p .revParse = .error .called := by
  unfold checkOutput
  rw [spawn_ready w p _ h]
  simp only [exec, hn]
  rfl

open Classical in
theorem call_diff (w : World) (p : Path) (h : Ready w p) (r : Repo) (hr : Encloses w p r) :
    callFailed w p .diffQuiet = .ok (decide (Unstaged r)) := by
  unfold callFailed
  rw [spawn_ready w p _ h]
  simp only [exec, (nearest_some w r p).2 hr]
  by_cases hu : Unstaged r
  · rw [if_pos ((any_iff_unstaged r).2 hu)]; simp [hu]
  · rw [if_neg (fun hh => hu ((any_iff_unstaged r).1 hh))]; simp [hu]

theorem check_ref (w : World) (p : Path) (h : Ready w p) (r : Repo) (hr : Encloses w p r) (s : Text) (hs : CheckedOut r s)
    (hok : r.Ok) (b : Text) (hb : Called r b) : checkOutput w p .abbrevRef = .ok b := by
  have hbn : ∀ x, r.head = .onBranch x → Name x := by
    intro x hx
    rcases hs with hs | ⟨y, hy, hl⟩
    · rw [hs] at hx; cases hx
    · rw [hy] at hx; cases hx
      exact (hok.branch _ _ (lookup_mem' hl)).1
  unfold checkOutput
  rw [spawn_ready w p _ h]
  have ht := (tip_iff r s).2 hs
  cases hb with
  | detached t hd =>
    simp only [exec, (nearest_some w r p).2 hr, ht, hd, if_true]
    congr 1
  | plain x hx hnt =>
    have hc : r.tags.contains b = false := by simpa using hnt
    simp only [exec, (nearest_some w r p).2 hr, ht, hx, if_true, hc, Bool.false_eq_true, if_false]
    rw [strip_line _ (hbn _ hx)]
  | shared x hx hnt =>
    have hc : r.tags.contains x = true := by simpa using hnt
    have hnm : Name ("heads/".toList ++ x) := by
      refine ⟨by simp, fun c hc => ?_⟩
      rcases List.mem_append.1 hc with h | h
      · have hall : ∀ c ∈ "heads/".toList, isWs c = false := by decide
        exact hall c h
      · exact (hbn x hx).2 c h
    simp only [exec, (nearest_some w r p).2 hr, ht, hx, if_true, hc]
    rw [strip_line _ hnm]

theorem called_exists (r : Repo) : ∃ b, Called r b := by
  cases h : r.head with
  | detached s => exact ⟨_, .detached s h⟩
  | onBranch b =>
    by_cases hb : b ∈ r.tags
    · exact ⟨_, .shared b h hb⟩
    · exact ⟨_, .plain b h hb⟩

/-! ### a machine that changes while it is asked -/

/-- **C220** Whatever happens on the machine between the three commands, the answer is about the asked path and is complete or
withheld as a whole: either commit, abbreviation, branch are `"unknown"` and the dirty mark is `None`, or the mark is a
boolean, the abbreviation is the first seven characters of the commit, the commit is what the first command printed and the
branch what the last one printed. -/
theorem C220_all_or_nothing (w1 w2 w3 : World) (p : Path) (g : GitInfo) (h : gitInfo w1 w2 w3 p = .ok g) :
    g.path = p ∧
    ((g.sha = "unknown".toList ∧ g.shortSha = "unknown".toList ∧ g.branch = "unknown".toList ∧ g.dirty = none) ∨
     (g.shortSha = g.sha.take 7 ∧ (∃ d, g.dirty = some d) ∧
      checkOutput w1 p .revParse = .ok g.sha ∧ checkOutput w3 p .abbrevRef = .ok g.branch)) := by
  unfold gitInfo gitBody at h
  cases h1 : checkOutput w1 p .revParse with
  | error e => rw [h1] at h; cases e <;> simp [bind, Except.bind, unknownInfo] at h <;> subst h <;> exact ⟨rfl, .inl ⟨rfl, rfl, rfl, rfl⟩⟩
  | ok s =>
    cases h2 : callFailed w2 p .diffQuiet with
    | error e =>
      rw [h1, h2] at h; cases e <;> simp [bind, Except.bind, unknownInfo] at h <;> subst h <;> exact ⟨rfl, .inl ⟨rfl, rfl, rfl, rfl⟩⟩
    | ok d =>
      cases h3 : checkOutput w3 p .abbrevRef with
      | error e =>
        rw [h1, h2, h3] at h; cases e <;> simp [bind, Except.bind, unknownInfo] at h <;> subst h <;> exact ⟨rfl, .inl ⟨rfl, rfl, rfl, rfl⟩⟩
      | ok b =>
        rw [h1, h2, h3] at h
        simp only [bind, Except.bind, pure, Except.pure, Except.ok.injEq] at h
        subst h
        exact ⟨rfl, .inr ⟨rfl, ⟨d, rfl⟩, rfl, rfl⟩⟩

/-- The answer of a usable machine whose repository may change between the commands, piece by piece. -/
theorem moving (w1 w2 w3 : World) (p : Path) (h1 : Ready w1 p) (h2 : Ready w2 p) (h3 : Ready w3 p) (r1 r2 r3 : Repo)
    (e1 : Encloses w1 p r1) (e2 : Encloses w2 p r2) (e3 : Encloses w3 p r3) (ok1 : r1.Ok) (ok3 : r3.Ok)
    (s s' b : Text) (hs : CheckedOut r1 s) (hs' : CheckedOut r3 s') (hb : Called r3 b) :
    ∃ d, (d = true ↔ Unstaged r2) ∧ gitInfo w1 w2 w3 p = .ok ⟨s, s.take 7, some d, b, p⟩ := by
  classical
  refine ⟨decide (Unstaged r2), by simp, ?_⟩
  unfold gitInfo gitBody
  rw [check_rev_some w1 p h1 r1 e1 s hs (tip_name r1 ok1 s hs), check_ref w3 p h3 r3 e3 s' hs' ok3 b hb]
  have := call_diff w2 p h2 r2 e2
  simp only [bind, Except.bind, pure, Except.pure]
  rw [this]

/-- **C220** On a machine that holds still, with git, a usable directory and at least one commit: the record names the commit
checked out in the nearest enclosing repository, its branch (`HEAD` when detached), and is dirty exactly when a tracked file
was edited or deleted without being staged. -/
theorem C220_settled (w : World) (p : Path) (hw : Ready w p) (r : Repo) (hr : Encloses w p r) (ok : r.Ok) (s b : Text)
    (hs : CheckedOut r s) (hb : Called r b) :
    ∃ d, (d = true ↔ Unstaged r) ∧ gitInfo w w w p = .ok ⟨s, s.take 7, some d, b, p⟩ :=
  moving w w w p hw hw hw r r r hr hr hr ok ok s s b hs hs hb

/-- **C220** The record is withheld exactly when git or the directory is missing, no directory upwards is a repository, or its
current branch has no commit yet. -/
theorem C220_withheld (w : World) (p : Path) (hok : ∀ r, Encloses w p r → r.Ok) :
    gitInfo w w w p = .ok (unknownInfo p) ↔
      w.entry p = .missing ∨ (w.entry p = .dir ∧ (w.git = false ∨ Outside w p ∨ ∃ r, Encloses w p r ∧ ∀ s, ¬ CheckedOut r s)) := by
  have spawnErr : ∀ e, (∀ c, spawn w p c = .error e) → gitBody w w w p = .error e := by
    intro e he
    unfold gitBody checkOutput
    rw [he]; rfl
  cases hp : w.entry p with
  | missing =>
    have : gitBody w w w p = .error .noFile := spawnErr _ (fun c => by unfold spawn; rw [hp])
    simp [gitInfo, this]
  | file =>
    have : gitBody w w w p = .error .notDir := spawnErr _ (fun c => by unfold spawn; rw [hp])
    simp [gitInfo, this]
  | locked =>
    have : gitBody w w w p = .error .denied := spawnErr _ (fun c => by unfold spawn; rw [hp])
    simp [gitInfo, this]
  | dir =>
    by_cases hg : w.git = true
    · have hw : Ready w p := ⟨hp, hg⟩
      have none_case : (nearest w p).bind Repo.tip = none → gitInfo w w w p = .ok (unknownInfo p) := by
        intro hn
        unfold gitInfo gitBody
        rw [check_rev_none w p hw hn]; rfl
      cases hn : nearest w p with
      | none =>
        have := (nearest_none w p).1 hn
        refine ⟨fun _ => .inr ⟨rfl, .inr (.inl this)⟩, fun _ => none_case (by rw [hn]; rfl)⟩
      | some r =>
        have he := (nearest_some w r p).1 hn
        have hout : ¬ Outside w p := fun h => by
          have := (nearest_none w p).2 h; rw [hn] at this; cases this
        cases ht : r.tip with
        | none =>
          refine ⟨fun _ => .inr ⟨rfl, .inr (.inr ⟨r, he, fun s hs => ?_⟩)⟩, fun _ => none_case (by rw [hn]; exact ht)⟩
          have := (tip_iff r s).2 hs; rw [ht] at this; cases this
        | some s =>
          have hs := (tip_iff r s).1 ht
          obtain ⟨b, hb⟩ := called_exists r
          obtain ⟨d, -, hd⟩ := C220_settled w p hw r he (hok r he) s b hs hb
          rw [hd]
          constructor
          · intro h
            exfalso
            simp [unknownInfo] at h
          · rintro (h | ⟨-, h | h | ⟨r', he', h⟩⟩)
            · cases h
            · rw [hg] at h; cases h
            · exact absurd h hout
            · rw [encloses_unique w p r' r he' he] at h
              exact absurd hs (h s)
    · have hg' : w.git = false := by simpa using hg
      have : gitBody w w w p = .error .noFile := spawnErr _ (fun c => by unfold spawn; rw [hp, hg']; rfl)
      refine ⟨fun _ => .inr ⟨rfl, .inl hg'⟩, fun _ => by simp [gitInfo, this]⟩

/-- **C220** The only errors that reach the caller: a path that is a file, or a directory that may not be entered, at one of the
three commands. -/
theorem C220_raises (w1 w2 w3 : World) (p : Path) (e : Fail) (h : gitInfo w1 w2 w3 p = .error e) :
    (e = .notDir ∧ (w1.entry p = .file ∨ w2.entry p = .file ∨ w3.entry p = .file)) ∨
    (e = .denied ∧ (w1.entry p = .locked ∨ w2.entry p = .locked ∨ w3.entry p = .locked)) := by
  have sp : ∀ w c e, spawn w p c = .error e → e = .noFile ∨ (e = .notDir ∧ w.entry p = .file) ∨ (e = .denied ∧ w.entry p = .locked) := by
    intro w c e h
    unfold spawn at h
    cases hp : w.entry p <;> rw [hp] at h
    · cases h; exact .inl rfl
    · cases h; exact .inr (.inl ⟨rfl, rfl⟩)
    · by_cases hg : w.git = true
      · simp [hg] at h
      · simp [hg] at h; exact .inl h.symm
    · cases h; exact .inr (.inr ⟨rfl, rfl⟩)
  have co : ∀ w c e, checkOutput w p c = .error e → e = .called ∨ e = .noFile ∨ (e = .notDir ∧ w.entry p = .file) ∨ (e = .denied ∧ w.entry p = .locked) := by
    intro w c e h
    unfold checkOutput at h
    cases hs : spawn w p c with
    | error x => rw [hs] at h; cases h; exact .inr (sp w c _ hs)
    | ok y =>
      rw [hs] at h
      by_cases hy : y.1 = 0
      · simp [hy] at h
      · simp [hy] at h; exact .inl h.symm
  have cf : ∀ w c e, callFailed w p c = .error e → e = .noFile ∨ (e = .notDir ∧ w.entry p = .file) ∨ (e = .denied ∧ w.entry p = .locked) := by
    intro w c e h
    unfold callFailed at h
    cases hs : spawn w p c with
    | error x => rw [hs] at h; cases h; exact sp w c _ hs
    | ok y => rw [hs] at h; cases h
  have body : ∀ x, gitBody w1 w2 w3 p = .error x → gitInfo w1 w2 w3 p = .error e → x = e := by
    intro x hx hh
    unfold gitInfo at hh
    rw [hx] at hh
    cases x <;> simp at hh <;> exact hh
  have nc : ∀ x, gitBody w1 w2 w3 p = .error x → x ≠ .called ∧ x ≠ .noFile := by
    intro x hx
    unfold gitInfo at h
    rw [hx] at h
    cases x <;> simp at h <;> simp
  have fin : ∀ x, gitBody w1 w2 w3 p = .error x →
      (x = .called ∨ x = .noFile ∨ (x = .notDir ∧ (w1.entry p = .file ∨ w2.entry p = .file ∨ w3.entry p = .file)) ∨
       (x = .denied ∧ (w1.entry p = .locked ∨ w2.entry p = .locked ∨ w3.entry p = .locked))) →
      (e = .notDir ∧ (w1.entry p = .file ∨ w2.entry p = .file ∨ w3.entry p = .file)) ∨
      (e = .denied ∧ (w1.entry p = .locked ∨ w2.entry p = .locked ∨ w3.entry p = .locked)) := by
    intro x hx hh
    have hxe := body x hx h
    subst hxe
    rcases hh with hh | hh | hh | hh
    · exact absurd hh (nc _ hx).1
    · exact absurd hh (nc _ hx).2
    · exact .inl hh
    · exact .inr hh
  cases h1 : checkOutput w1 p .revParse with
  | error x =>
    refine fin x (by unfold gitBody; rw [h1]; rfl) ?_
    rcases co w1 _ _ h1 with h | h | h | h
    · exact .inl h
    · exact .inr (.inl h)
    · exact .inr (.inr (.inl ⟨h.1, .inl h.2⟩))
    · exact .inr (.inr (.inr ⟨h.1, .inl h.2⟩))
  | ok s =>
    cases h2 : callFailed w2 p .diffQuiet with
    | error x =>
      refine fin x (by unfold gitBody; rw [h1, h2]; rfl) ?_
      rcases cf w2 _ _ h2 with h | h | h
      · exact .inr (.inl h)
      · exact .inr (.inr (.inl ⟨h.1, .inr (.inl h.2)⟩))
      · exact .inr (.inr (.inr ⟨h.1, .inr (.inl h.2)⟩))
    | ok d =>
      cases h3 : checkOutput w3 p .abbrevRef with
      | error x =>
        refine fin x (by unfold gitBody; rw [h1, h2, h3]; rfl) ?_
        rcases co w3 _ _ h3 with h | h | h | h
        · exact .inl h
        · exact .inr (.inl h)
        · exact .inr (.inr (.inl ⟨h.1, .inr (.inr h.2)⟩))
        · exact .inr (.inr (.inr ⟨h.1, .inr (.inr h.2)⟩))
      | ok b =>
        exfalso
        unfold gitInfo gitBody at h
        rw [h1, h2, h3] at h
        cases h

/-! ### what "dirty" means -/

/-- **C220** A record marked dirty is never marked so wrongly: index or tracked working files differ from the recorded commit. -/
theorem C220_dirty_is_real (w : World) (p : Path) (hw : Ready w p) (r : Repo) (hr : Encloses w p r) (ok : r.Ok) (g : GitInfo)
    (h : gitInfo w w w p = .ok g) (hd : g.dirty = some true) (t : Tree) : ¬ CleanOn r t := by
  intro hc
  cases ht : r.tip with
  | none =>
    have : gitInfo w w w p = .ok (unknownInfo p) :=
      (C220_withheld w p (fun r' he => by rw [encloses_unique w p r' r he hr]; exact ok)).2
        (.inr ⟨hw.1, .inr (.inr ⟨r, hr, fun s hs => by have := (tip_iff r s).2 hs; rw [ht] at this; cases this⟩)⟩)
    rw [this] at h; cases h; cases hd
  | some s =>
    obtain ⟨b, hb⟩ := called_exists r
    obtain ⟨d, hiff, hg⟩ := C220_settled w p hw r hr ok s b ((tip_iff r s).1 ht) hb
    rw [hg] at h; cases h
    simp only [Option.some.injEq] at hd
    obtain ⟨f, c, hi, hwk⟩ := hiff.1 hd
    exact hwk (hc.2 f c (by rw [← hc.1 f]; exact hi))

/-- putting a repository in a directory of a world -/
def World.put (w : World) (q : Path) (r : Repo) : World := { w with repo := fun x => if x = q then some r else w.repo x }

theorem put_encloses (w : World) (p q : Path) (r r' : Repo) (inner : Path) (hp : p = inner ++ q) (hq : w.repo q = some r)
    (hn : ∀ a b, inner = a ++ b → b ≠ [] → w.repo (b ++ q) = none) : Encloses (w.put q r') p r' := by
  refine ⟨inner, q, hp, by simp [World.put], fun a b hab hb => ?_⟩
  have : b ++ q ≠ q := by
    intro h
    have hl := congrArg List.length h
    rw [List.length_append] at hl
    exact hb (List.length_eq_zero_iff.1 (by omega))
  simp only [World.put, if_neg this]
  exact hn a b hab hb

/-- `git add` of an edited or new file: the same new contents in the working files and in the index -/
def Repo.stage (r : Repo) (f c : Text) : Repo := { r with index := (f, c) :: r.index, work := (f, c) :: r.work }

/-- writing a file without telling git -/
def Repo.write (r : Repo) (f c : Text) : Repo := { r with work := (f, c) :: r.work }

theorem lookup_cons (f g c : Text) (l : Tree) : List.lookup g ((f, c) :: l) = if g = f then some c else l.lookup g := by
  by_cases h : g = f
  · subst h; simp [List.lookup]
  · have hf : (g == f) = false := by simpa using h
    simp only [List.lookup, hf, if_neg h]

theorem stage_not_unstaged (r : Repo) (f c : Text) (h : ¬ Unstaged r) : ¬ Unstaged (r.stage f c) := by
  rintro ⟨g, x, hi, hw⟩
  simp only [Repo.stage, lookup_cons] at hi hw
  by_cases hg : g = f
  · simp only [if_pos hg] at hi hw; exact hw hi
  · simp only [if_neg hg] at hi hw; exact h ⟨g, x, hi, hw⟩

theorem write_untracked (r : Repo) (f c : Text) (hf : r.index.lookup f = none) (h : ¬ Unstaged r) : ¬ Unstaged (r.write f c) := by
  rintro ⟨g, x, hi, hw⟩
  simp only [Repo.write, lookup_cons] at hi hw
  by_cases hg : g = f
  · rw [hg, hf] at hi; cases hi
  · simp only [if_neg hg] at hw; exact h ⟨g, x, hi, hw⟩

/-- an edit that is not staged -/
theorem write_tracked (r : Repo) (f c x : Text) (hf : r.index.lookup f = some x) (hc : c ≠ x) : Unstaged (r.write f c) := by
  refine ⟨f, x, hf, ?_⟩
  simp only [Repo.write, lookup_cons, if_true]
  intro h; exact hc (Option.some.inj h)

/-- **C220** (violated: a record without the mark does not mean the recorded commit is what ran.)  Take any clean checkout, in any
directory.  Editing a tracked file marks the record; but staging the edit — or any set of files one after the other — or adding a new
module without telling git gives a record equal to that of the clean checkout, and so the same citation. -/
theorem C220_not_all_changes (w : World) (p q : Path) (inner : Path) (hp : p = inner ++ q) (r : Repo) (hw : Ready w p)
    (hq : w.repo q = some r) (hn : ∀ a b, inner = a ++ b → b ≠ [] → w.repo (b ++ q) = none) (ok : r.Ok) (s : Text)
    (hs : CheckedOut r s) (t : Tree) (hc : CleanOn r t) (f c : Text) :
    (∃ b, gitInfo w w w p = .ok ⟨s, s.take 7, some false, b, p⟩) ∧
    gitInfo (w.put q (r.stage f c)) (w.put q (r.stage f c)) (w.put q (r.stage f c)) p = gitInfo w w w p ∧
    (t.lookup f = none → gitInfo (w.put q (r.write f c)) (w.put q (r.write f c)) (w.put q (r.write f c)) p = gitInfo w w w p) ∧
    (∀ x, t.lookup f = some x → c ≠ x →
      ∃ g, gitInfo (w.put q (r.write f c)) (w.put q (r.write f c)) (w.put q (r.write f c)) p = .ok g ∧ g.dirty = some true) := by
  have he : Encloses w p r := ⟨inner, q, hp, hq, hn⟩
  have hclean : ¬ Unstaged r := by
    rintro ⟨g, x, hi, hwk⟩
    exact hwk (hc.2 g x (by rw [← hc.1 g]; exact hi))
  have ready : ∀ r', Ready (w.put q r') p := fun r' => hw
  have enc : ∀ r', Encloses (w.put q r') p r' := fun r' => put_encloses w p q r r' inner hp hq hn
  obtain ⟨b, hb⟩ := called_exists r
  have same : ∀ r' : Repo, r'.head = r.head → r'.branches = r.branches → r'.tags = r.tags →
      ∃ d, (d = true ↔ Unstaged r') ∧ gitInfo (w.put q r') (w.put q r') (w.put q r') p = .ok ⟨s, s.take 7, some d, b, p⟩ := by
    intro r' h1 h2 h3
    refine C220_settled _ p (ready r') r' (enc r') ⟨fun x y hx => ok.branch x y (h2 ▸ hx), fun x hx => ok.head x (h1 ▸ hx)⟩ s b ?_ ?_
    · unfold CheckedOut; rw [h1, h2]; exact hs
    · cases hb with
      | detached t ht => exact .detached t (h1 ▸ ht)
      | plain y hy hnt => exact .plain _ (h1 ▸ hy) (h3 ▸ hnt)
      | shared y hy hnt => exact .shared y (h1 ▸ hy) (h3 ▸ hnt)
  have notd : ∀ d, (d = true ↔ False) → d = false := by intro d hd; cases d <;> simp_all
  obtain ⟨d, hd, hg⟩ := C220_settled w p hw r he ok s b hs hb
  have hdf : d = false := notd d ⟨fun h => hclean (hd.1 h), False.elim⟩
  subst hdf
  refine ⟨⟨b, hg⟩, ?_, ?_, ?_⟩
  · obtain ⟨d', hd', hg'⟩ := same (r.stage f c) rfl rfl rfl
    have : d' = false := notd d' ⟨fun h => stage_not_unstaged r f c hclean (hd'.1 h), False.elim⟩
    rw [hg', hg, this]
  · intro hf
    obtain ⟨d', hd', hg'⟩ := same (r.write f c) rfl rfl rfl
    have : d' = false := notd d' ⟨fun h => write_untracked r f c (by rw [hc.1]; exact hf) hclean (hd'.1 h), False.elim⟩
    rw [hg', hg, this]
  · intro x hf hx
    obtain ⟨d', hd', hg'⟩ := same (r.write f c) rfl rfl rfl
    have : d' = true := hd'.2 (write_tracked r f c x (by rw [hc.1]; exact hf) hx)
    exact ⟨_, hg', by rw [this]⟩

/-! ### a checkout in between, an installed package -/

/-- **C220** (violated: commit and branch of one record belong together.)  If another branch is checked out after the first command,
the record pairs the commit of the old branch with the name of the new one — for any repository and any two branches. -/
theorem C220_race (w : World) (p q inner : Path) (hp : p = inner ++ q) (r : Repo) (hw : Ready w p) (hq : w.repo q = some r)
    (hn : ∀ a b, inner = a ++ b → b ≠ [] → w.repo (b ++ q) = none) (ok : r.Ok) (b1 b2 s1 s2 : Text)
    (hb : r.head = .onBranch b1) (h1 : r.branches.lookup b1 = some s1) (h2 : r.branches.lookup b2 = some s2) (ht : b2 ∉ r.tags)
    (hne : s1 ≠ s2) (i t : Tree) :
    ∃ g, gitInfo w (w.put q { r with head := .onBranch b2, index := i, work := t })
        (w.put q { r with head := .onBranch b2, index := i, work := t }) p = .ok g ∧
      g.sha = s1 ∧ g.branch = b2 ∧ r.branches.lookup g.branch ≠ some g.sha := by
  have ok' : ({ r with head := .onBranch b2, index := i, work := t } : Repo).Ok := ⟨ok.branch, fun s hs => by cases hs⟩
  obtain ⟨d, -, hg⟩ := moving w (w.put q { r with head := .onBranch b2, index := i, work := t })
    (w.put q { r with head := .onBranch b2, index := i, work := t }) p hw hw hw r _ _ ⟨inner, q, hp, hq, hn⟩
    (put_encloses w p q r _ inner hp hq hn) (put_encloses w p q r _ inner hp hq hn) ok ok' s1 s2 b2
    (.inr ⟨b1, hb, h1⟩) (.inr ⟨b2, rfl, h2⟩) (.plain b2 rfl ht)
  refine ⟨_, hg, rfl, rfl, ?_⟩
  rw [h2]
  intro h
  exact hne (Option.some.inj h).symm

/-- **C220** (violated: the commit in the record is a commit of solarwindpy.)  For a package installed without its repository anywhere
below a user's own one — an environment kept inside a project — the record and the citation name the commit of that project. -/
theorem C220_installed (w : World) (root : Path) (env : Path) (file dir : Text) (user : Repo) (hroot : w.repo root = some user)
    (hnone : ∀ a b, env = a ++ b → b ≠ [] → w.repo (b ++ root) = none) (ok : user.Ok) (hw : Ready w (env ++ root)) (s : Text)
    (hs : CheckedOut user s) :
    ∃ g, gitInfo w w w (defaultPath (file :: dir :: (env ++ root))) = .ok g ∧ g.sha = s ∧ g.shortSha = s.take 7 := by
  obtain ⟨b, hb⟩ := called_exists user
  obtain ⟨d, -, hg⟩ := C220_settled w (env ++ root) hw user ⟨env, root, rfl, hroot, hnone⟩ ok s b hs hb
  exact ⟨_, hg, rfl, rfl⟩

/-! ### get_info and the citation -/

/-- **C220** The dependency table has the five packages in order, each with its version, or `"not installed"` exactly when importing it
raised `ImportError`; any other error leaves `get_info` unanswered. -/
theorem C220_dependencies (w1 w2 w3 : World) (e : Env) (i : Info) (h : getInfo w1 w2 w3 e = .ok i) :
    i.deps.map Prod.fst = ["numpy", "scipy", "pandas", "matplotlib", "astropy"].map String.toList ∧
    (∀ n v, (n, v) ∈ i.deps → e.module n = .found v ∨ (e.module n = .importError ∧ v = "not installed".toList)) ∧
    gitInfo w1 w2 w3 (e.initFile.drop 2) = .ok i.git ∧ i.version = e.packageVersion ∧ i.timestamp = e.now ∧
    (∀ v c rest, e.sysVersion = v ++ c :: rest → (∀ x ∈ v, isWs x = false) → isWs c = true → i.python = v) := by
  have key : ∀ ns l, readDeps e.module ns = .ok l → l.map Prod.fst = ns ∧
      ∀ n v, (n, v) ∈ l → e.module n = .found v ∨ (e.module n = .importError ∧ v = "not installed".toList) := by
    intro ns
    induction ns with
    | nil => intro l hl; cases hl; exact ⟨rfl, fun n v hv => by simp at hv⟩
    | cons n ns ih =>
      intro l hl
      unfold readDeps at hl
      cases hm : e.module n with
      | broken x => rw [hm] at hl; cases hl
      | found v =>
        rw [hm] at hl
        cases hr : readDeps e.module ns with
        | error x => rw [hr] at hl; cases hl
        | ok l' =>
          rw [hr] at hl
          simp only [Except.map, Except.ok.injEq] at hl
          subst hl
          refine ⟨by simp [(ih l' hr).1], fun a b hab => ?_⟩
          rcases List.mem_cons.1 hab with hab | hab
          · cases hab; exact .inl hm
          · exact (ih l' hr).2 a b hab
      | importError =>
        rw [hm] at hl
        cases hr : readDeps e.module ns with
        | error x => rw [hr] at hl; cases hl
        | ok l' =>
          rw [hr] at hl
          simp only [Except.map, Except.ok.injEq] at hl
          subst hl
          refine ⟨by simp [(ih l' hr).1], fun a b hab => ?_⟩
          rcases List.mem_cons.1 hab with hab | hab
          · simp only [Prod.mk.injEq] at hab; exact .inr ⟨hab.1 ▸ hm, hab.2⟩
          · exact (ih l' hr).2 a b hab
  unfold getInfo at h
  cases hg : gitInfo w1 w2 w3 (defaultPath e.initFile) with
  | error x => rw [hg] at h; cases h
  | ok g =>
    rw [hg] at h
    simp only at h
    cases hd : readDeps e.module depNames with
    | error x => rw [hd] at h; cases h
    | ok l =>
      rw [hd] at h
      simp only [Except.ok.injEq] at h
      subst h
      refine ⟨(key _ _ hd).1, (key _ _ hd).2, ?_, rfl, rfl, ?_⟩
      · have : e.initFile.drop 2 = defaultPath e.initFile := by unfold defaultPath; rw [List.drop_drop]
        rw [this]; exact hg
      · intro v c rest hv hx hc
        simp only [firstWord, hv]
        rw [List.takeWhile_append_of_pos (fun a ha => by simp [hx a ha])]
        simp [hc]

/-- **C220** `get_info` answers whenever the git record is there and no dependency is broken (missing ones do not matter). -/
theorem C220_total (w1 w2 w3 : World) (e : Env) (g : GitInfo) (hg : gitInfo w1 w2 w3 (e.initFile.drop 2) = .ok g)
    (hm : ∀ n x, e.module n ≠ .broken x) : ∃ i, getInfo w1 w2 w3 e = .ok i ∧ i.git = g := by
  have key : ∀ ns, ∃ l, readDeps e.module ns = .ok l := by
    intro ns
    induction ns with
    | nil => exact ⟨[], rfl⟩
    | cons n ns ih =>
      obtain ⟨l, hl⟩ := ih
      unfold readDeps
      cases h : e.module n with
      | broken x => exact absurd h (hm n x)
      | found v => exact ⟨_, by rw [hl]; rfl⟩
      | importError => exact ⟨_, by rw [hl]; rfl⟩
  obtain ⟨l, hl⟩ := key depNames
  have : e.initFile.drop 2 = defaultPath e.initFile := by unfold defaultPath; rw [List.drop_drop]
  refine ⟨⟨e.now, firstWord e.sysVersion, e.packageVersion, g, l⟩, ?_, rfl⟩
  unfold getInfo
  rw [← this, hg, hl]

/-- **C220** The citation, word for word; the note about local modifications is there exactly when the record is marked dirty. -/
theorem C220_citation (i : Info) :
    (i.git.dirty = some true → citation i = "Analysis performed with solarwindpy ".toList ++ i.version ++ " (commit ".toList ++
        i.git.shortSha ++ " (with local modifications)) using Python ".toList ++ i.python ++ ".".toList) ∧
    (i.git.dirty ≠ some true → citation i = "Analysis performed with solarwindpy ".toList ++ i.version ++ " (commit ".toList ++
        i.git.shortSha ++ ") using Python ".toList ++ i.python ++ ".".toList) := by
  constructor
  · intro h
    unfold citation dirtyNote
    rw [if_pos h]
    simp only [List.append_assoc]
    rfl
  · intro h
    unfold citation dirtyNote
    rw [if_neg h]
    simp only [List.append_assoc, List.nil_append]

theorem span_unique (P : Char → Bool) : ∀ (a b x y : Text), (∀ c ∈ a, P c = true) → (∀ c ∈ b, P c = true) →
    (∀ c, x.head? = some c → P c = false) → (∀ c, y.head? = some c → P c = false) → x ≠ [] → y ≠ [] → a ++ x = b ++ y → a = b ∧ x = y
  | [], [], _, _, _, _, _, _, _, _, h => ⟨rfl, h⟩
  | [], d :: b, x, y, _, hb, hx, _, _, _, h => by
    rw [List.nil_append, List.cons_append] at h
    have := hx d (by rw [h]; rfl)
    rw [hb d (by simp)] at this; cases this
  | c :: a, [], x, y, ha, _, _, hy, _, _, h => by
    rw [List.nil_append, List.cons_append] at h
    have := hy c (by rw [← h]; rfl)
    rw [ha c (by simp)] at this; cases this
  | c :: a, d :: b, x, y, ha, hb, hx, hy, hxn, hyn, h => by
    rw [List.cons_append, List.cons_append, List.cons.injEq] at h
    have := span_unique P a b x y (fun z hz => ha z (by simp [hz])) (fun z hz => hb z (by simp [hz])) hx hy hxn hyn h.2
    exact ⟨by rw [h.1, this.1], this.2⟩

/-- **C220** What a citation identifies: with version, abbreviation free of spaces and closing brackets, two citations are the same text
exactly when version, seven-character abbreviation, modification note and Python version agree — so commits that differ only after the
seventh character, and "not dirty" and "could not tell", are cited alike. -/
theorem C220_citation_identifies (i j : Info) (hv : ∀ c ∈ i.version, c ≠ ' ') (hv' : ∀ c ∈ j.version, c ≠ ' ')
    (hs : ∀ c ∈ i.git.shortSha, c ≠ ' ' ∧ c ≠ ')') (hs' : ∀ c ∈ j.git.shortSha, c ≠ ' ' ∧ c ≠ ')') :
    citation i = citation j ↔ i.version = j.version ∧ i.git.shortSha = j.git.shortSha ∧ i.python = j.python ∧
      (i.git.dirty = some true ↔ j.git.dirty = some true) := by
  constructor
  · intro h
    unfold citation at h
    simp only [List.append_assoc] at h
    have h := List.append_cancel_left h
    obtain ⟨e1, h⟩ := span_unique (fun c => c != ' ') _ _ _ _ (fun c hc => by simpa using hv c hc) (fun c hc => by simpa using hv' c hc)
      (fun c hc => by simp at hc; simp [← hc]) (fun c hc => by simp at hc; simp [← hc]) (by simp) (by simp) h
    have h := List.append_cancel_left h
    have hd : ∀ (d : Option Bool) (rest : Text) (c : Char),
        (dirtyNote d ++ (") using Python ".toList ++ rest)).head? = some c → (c != ' ' && c != ')') = false := by
      intro d rest c hc
      unfold dirtyNote at hc
      by_cases hh : d = some true
      · rw [if_pos hh] at hc; simp at hc; simp [← hc]
      · rw [if_neg hh] at hc; simp at hc; simp [← hc]
    obtain ⟨e2, h⟩ := span_unique (fun c => c != ' ' && c != ')') _ _ _ _ (fun c hc => by simpa using hs c hc)
      (fun c hc => by simpa using hs' c hc) (hd _ _) (hd _ _) (by simp) (by simp) h
    unfold dirtyNote at h
    by_cases h1 : i.git.dirty = some true
    · by_cases h2 : j.git.dirty = some true
      · rw [if_pos h1, if_pos h2] at h
        have h := List.append_cancel_left (List.append_cancel_left h)
        exact ⟨e1, e2, List.append_cancel_right h, by simp [h1, h2]⟩
      · rw [if_pos h1, if_neg h2] at h; simp at h
    · by_cases h2 : j.git.dirty = some true
      · rw [if_neg h1, if_pos h2] at h; simp at h
      · rw [if_neg h1, if_neg h2] at h
        have h := List.append_cancel_left (List.append_cancel_left h)
        exact ⟨e1, e2, List.append_cancel_right h, by simp [h1, h2]⟩
  · rintro ⟨h1, h2, h3, h4⟩
    unfold citation dirtyNote
    by_cases hd : i.git.dirty = some true
    · rw [if_pos hd, if_pos (h4.1 hd), h1, h2, h3]
    · rw [if_neg hd, if_neg (fun h => hd (h4.2 h)), h1, h2, h3]

/-- **C220** `print_info` shows the full commit, the branch and the path of the record on their lines, a line per dependency, and its
warning exactly when the record is marked dirty. -/
theorem C220_printed (i : Info) :
    (printed i)[6]? = some ("  SHA: ".toList ++ i.git.sha) ∧ (printed i)[7]? = some ("  Branch: ".toList ++ i.git.branch) ∧
    (i.git.dirty = some true → (printed i)[8]? = some "  WARNING: Uncommitted changes present!".toList ∧ (printed i).length = 13 + i.deps.length) ∧
    (i.git.dirty ≠ some true → (printed i)[8]? = some ("  Path: ".toList ++ pathText i.git.path) ∧ (printed i).length = 12 + i.deps.length) ∧
    (∀ n v, (n, v) ∈ i.deps → ("  ".toList ++ n ++ ": ".toList ++ v) ∈ printed i) := by
  unfold printed
  refine ⟨rfl, rfl, ?_, ?_, ?_⟩
  · intro h; rw [if_pos h]
    refine ⟨rfl, ?_⟩
    simp only [List.length_append, List.length_cons, List.length_map, List.length_nil]
    omega
  · intro h; rw [if_neg h]
    refine ⟨rfl, ?_⟩
    simp only [List.length_append, List.length_cons, List.length_map, List.length_nil]
    omega
  · intro n v hv
    apply List.mem_append_left
    apply List.mem_append_right
    exact List.mem_map.2 ⟨(n, v), hv, rfl⟩

/-! ### the hypotheses are met -/

/-- a project with a tag named like nothing, one commit on `main`, another on `dev`, one tracked file -/
def demoRepo : Repo where
  branches := [("main".toList, "0123456789abcdef".toList), ("dev".toList, "0123456fedcba987".toList)]
  tags := ["v1".toList]
  commits := [("0123456789abcdef".toList, [("a.py".toList, "x".toList)])]
  head := .onBranch "main".toList
  index := [("a.py".toList, "x".toList)]
  work := [("a.py".toList, "x".toList)]

def demoWorld : World where
  git := true
  entry := fun _ => .dir
  repo := fun p => if p = ["project".toList] then some demoRepo else none

def demoPath : Path := ["site-packages".toList, "env".toList, "project".toList]

/-- demo: an environment inside a project; the record names the project's commit -/
example : gitInfo demoWorld demoWorld demoWorld (defaultPath ("__init__.py".toList :: "solarwindpy".toList :: demoPath)) =
    .ok ⟨"0123456789abcdef".toList, "0123456".toList, some false, "main".toList, demoPath⟩ := by decide +kernel

example : Ready demoWorld demoPath := ⟨rfl, rfl⟩

theorem demo_ok : demoRepo.Ok := by
  refine ⟨fun b s h => ?_, fun s h => by simp [demoRepo] at h⟩
  simp only [demoRepo, List.mem_cons, Prod.mk.injEq, List.not_mem_nil, or_false] at h
  rcases h with ⟨rfl, rfl⟩ | ⟨rfl, rfl⟩ <;> exact ⟨⟨by decide, by decide⟩, ⟨by decide, by decide⟩⟩

theorem demo_encloses : Encloses demoWorld demoPath demoRepo := (nearest_some _ _ _).1 (by decide +kernel)

theorem demo_clean : CleanOn demoRepo [("a.py".toList, "x".toList)] := ⟨fun _ => rfl, fun _ _ h => h⟩

example : CheckedOut demoRepo "0123456789abcdef".toList := .inr ⟨"main".toList, rfl, by decide +kernel⟩

/-- demo: an edit is marked, the same edit staged is not -/
example :
    (gitInfo (demoWorld.put ["project".toList] (demoRepo.write "a.py".toList "y".toList))
      (demoWorld.put ["project".toList] (demoRepo.write "a.py".toList "y".toList))
      (demoWorld.put ["project".toList] (demoRepo.write "a.py".toList "y".toList)) demoPath).map GitInfo.dirty = .ok (some true) ∧
    (gitInfo (demoWorld.put ["project".toList] (demoRepo.stage "a.py".toList "y".toList))
      (demoWorld.put ["project".toList] (demoRepo.stage "a.py".toList "y".toList))
      (demoWorld.put ["project".toList] (demoRepo.stage "a.py".toList "y".toList)) demoPath).map GitInfo.dirty = .ok (some false) := by
  decide +kernel

/-- demo: a citation -/
example : citation ⟨[], "3.11.4".toList, "0.3.0".toList, ⟨"0123456789".toList, "0123456".toList, some true, "main".toList, []⟩, []⟩ =
    "Analysis performed with solarwindpy 0.3.0 (commit 0123456 (with local modifications)) using Python 3.11.4.".toList := by
  decide +kernel

end SW.Repro
