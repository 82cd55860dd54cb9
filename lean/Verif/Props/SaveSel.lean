import Verif.SaveSel
import Verif.Props.PlotTools
import Mathlib.Tactic.Ring
import Mathlib.Data.List.TakeWhile

/-!
# C188, C189: saving figures, the history of a selection
-/

namespace SW
namespace PlotTools
open Classical

/-! ### C188: files written by `save` -/

theorem span_append (ext : Name) (h : '.' ∉ ext) (rest : Name) :
    (ext ++ '.' :: rest).span (· ≠ '.') = (ext, '.' :: rest) := by
  rw [List.span_eq_takeWhile_dropWhile]
  have h1 : ∀ x ∈ ext, (decide (x ≠ '.')) = true := by
    intro x hx; simp only [decide_eq_true_eq]; rintro rfl; exact h hx
  rw [List.takeWhile_append_of_pos h1, List.dropWhile_append_of_pos h1]
  simp

/-- a name without a dot has no suffix -/
theorem stem_dotless (n : Name) (h : '.' ∉ n) : stemOf n = n := by
  unfold stemOf
  rw [List.span_eq_takeWhile_dropWhile]
  have h1 : ∀ x ∈ n.reverse, (decide (x ≠ '.')) = true := by
    intro x hx; simp only [decide_eq_true_eq]; rintro rfl; exact h (List.mem_reverse.mp hx)
  have h2 : n.reverse.dropWhile (fun x => decide (x ≠ '.')) = [] := by
    simp only [List.dropWhile_eq_nil_iff]; exact h1
  rw [h2]

/-- everything after the last dot is the suffix, unless nothing precedes or follows that dot -/
theorem stem_dotted (stem ext : Name) (h : '.' ∉ ext) :
    stemOf (stem ++ '.' :: ext) = if ext = [] ∨ stem = [] then stem ++ '.' :: ext else stem := by
  unfold stemOf
  have : (stem ++ '.' :: ext).reverse = ext.reverse ++ '.' :: stem.reverse := by simp
  rw [this, span_append _ (by simpa using h)]
  simp

/-- C188: the names of the files: an undotted base name gets the extension appended, so different undotted base names never share a
file; a base name `stem.rest` loses `rest`, so (violated: "the extension will be added") all base names that agree up to their last
dot are written to the same file; an empty base name is refused. -/
theorem C188_names (ext : Name) :
    (∀ n : Name, n ≠ [] → '.' ∉ n → withSuffix n ext = .ok (n ++ ext)) ∧
    (∀ n m : Name, n ≠ [] → m ≠ [] → '.' ∉ n → '.' ∉ m → withSuffix n ext = withSuffix m ext → n = m) ∧
    (∀ stem rest rest' : Name, stem ≠ [] → rest ≠ [] → rest' ≠ [] → '.' ∉ rest → '.' ∉ rest' →
      withSuffix (stem ++ '.' :: rest) ext = .ok (stem ++ ext) ∧
      withSuffix (stem ++ '.' :: rest) ext = withSuffix (stem ++ '.' :: rest') ext) ∧
    (∀ n : Name, '.' ∉ n → withSuffix ('.' :: n) ext = .ok ('.' :: n ++ ext) ∧ withSuffix (n ++ ['.']) ext = .ok (n ++ ['.'] ++ ext)) ∧
    withSuffix [] ext = .error .valueError := by
  have hd : ∀ n : Name, n ≠ [] → '.' ∉ n → withSuffix n ext = .ok (n ++ ext) := by
    intro n hn h; unfold withSuffix; rw [if_neg hn, stem_dotless n h]
  have hr : ∀ stem rest : Name, stem ≠ [] → rest ≠ [] → '.' ∉ rest → withSuffix (stem ++ '.' :: rest) ext = .ok (stem ++ ext) := by
    intro stem rest h1 h2 h3
    unfold withSuffix; rw [if_neg (by simp), stem_dotted stem rest h3, if_neg (by tauto)]
  refine ⟨hd, ?_, ?_, ?_, by simp [withSuffix]⟩
  · intro n m hn hm h1 h2 h
    rw [hd n hn h1, hd m hm h2] at h
    simpa using h
  · intro stem rest rest' h1 h2 h3 h4 h5
    rw [hr stem rest h1 h2 h4, hr stem rest' h1 h3 h5]
    exact ⟨rfl, rfl⟩
  · intro n h
    constructor
    · have := stem_dotted [] n h
      simp only [or_true, if_true, List.nil_append] at this
      unfold withSuffix; rw [if_neg (by simp), this]
    · have := stem_dotted n [] (by simp)
      simp only [true_or, if_true] at this
      unfold withSuffix; rw [if_neg (by simp), this]

/-- the file `save` writes for an extension -/
noncomputable def fileOf (p : FPath) (ext : String) : Name := stemOf p.name ++ '.' :: ext.toList

/-- the conditions under which a call is accepted -/
def Accepted (arg : FigArg) (isPath : Bool) (p : FPath) (o : SaveOpt) : Prop :=
  arg ≠ .other ∧ isPath = true ∧ (o.pdf = true ∨ o.png = true → p.name ≠ [] ∧ o.format = false)

theorem savefig_ok {o : SaveOpt} {p : FPath} (hn : p.name ≠ []) (hf : o.format = false) (ext : Name) (s : SaveSt) :
    savefig o p ext s = .ok ⟨s.stamps, s.disk.write p.dir (stemOf p.name ++ ext) s.stamps⟩ := by
  unfold savefig withSuffix
  rw [if_neg hn]
  simp [hf]

theorem savefig_err {o : SaveOpt} {p : FPath} (h : ¬ (p.name ≠ [] ∧ o.format = false)) (ext : Name) (s : SaveSt) :
    ∃ e, savefig o p ext s = .error e ∧ e = if p.name = [] then .valueError else .typeError := by
  unfold savefig withSuffix
  by_cases hn : p.name = []
  · simp [hn]
  · have hf : o.format = true := by
      by_contra hc; exact h ⟨hn, by simpa using hc⟩
    simp [hn, hf]

theorem pdfName : ['.', 'p', 'd', 'f'] = '.' :: "pdf".toList := by decide
theorem pngName : ['.', 'p', 'n', 'g'] = '.' :: "png".toList := by decide

theorem file_ne (p : FPath) : fileOf p "pdf" ≠ fileOf p "png" := by
  unfold fileOf
  intro h
  have := List.append_cancel_left h
  exact absurd this (by decide)

/-- C188: an accepted call writes the base path's PDF with exactly the stamps the figure already carried, the PNG with these and, on
request, the new one; no other file changes; the new stamp stays on the figure. -/
theorem C188_writes (arg : FigArg) (isPath : Bool) (p : FPath) (o : SaveOpt) (now : Nat) (s : SaveSt) (h : Accepted arg isPath p o) :
    ∃ s', save arg isPath p o now s = (.ok (), s') ∧
      s'.stamps = s.stamps ++ (if o.png = true ∧ o.addInfo = true then [now] else []) ∧
      (o.pdf = true → s'.disk p.dir (fileOf p "pdf") = some s.stamps) ∧
      (o.png = true → s'.disk p.dir (fileOf p "png") = some s'.stamps) ∧
      (∀ d n, (d = p.dir → (o.pdf = true → n ≠ fileOf p "pdf") ∧ (o.png = true → n ≠ fileOf p "png")) → s'.disk d n = s.disk d n) := by
  obtain ⟨ha, hp, hk⟩ := h
  have hne := file_ne p
  have e1 : stemOf p.name ++ ['.', 'p', 'd', 'f'] = fileOf p "pdf" := by rw [pdfName]; rfl
  have e2 : stemOf p.name ++ ['.', 'p', 'n', 'g'] = fileOf p "png" := by rw [pngName]; rfl
  obtain ⟨ai, pdf, png, fm⟩ := o
  simp only [] at hk ⊢
  unfold save
  rw [if_neg ha, hp]
  cases pdf with
  | false =>
    cases png with
    | false =>
      refine ⟨s, by simp, by simp, by simp, by simp, by simp⟩
    | true =>
      obtain ⟨hn, hf⟩ := hk (Or.inr rfl)
      simp only [Bool.not_true, Bool.false_eq_true, if_false, if_true, true_and]
      rw [savefig_ok hn hf, e2]
      refine ⟨_, rfl, ?_, by simp, ?_, ?_⟩
      · cases ai <;> simp
      · intro _; simp [Disk.write]
      · intro d n hd
        have : ¬ (d = p.dir ∧ n = fileOf p "png") := by
          rintro ⟨h1, h2⟩; exact (hd h1).2 trivial h2
        simp only [Disk.write, if_neg this]
        cases ai <;> rfl
  | true =>
    obtain ⟨hn, hf⟩ := hk (Or.inl rfl)
    cases png with
    | false =>
      simp only [Bool.not_true, Bool.false_eq_true, if_false, if_true, false_and]
      rw [savefig_ok hn hf, e1]
      refine ⟨_, rfl, by simp, ?_, by simp, ?_⟩
      · intro _; simp [Disk.write]
      · intro d n hd
        have : ¬ (d = p.dir ∧ n = fileOf p "pdf") := by
          rintro ⟨h1, h2⟩; exact (hd h1).1 trivial h2
        simp only [Disk.write, if_neg this]
    | true =>
      simp only [Bool.not_true, Bool.false_eq_true, if_false, if_true, true_and]
      rw [savefig_ok hn hf, e1]
      simp only []
      rw [savefig_ok hn hf, e2]
      refine ⟨_, rfl, ?_, ?_, ?_, ?_⟩
      · cases ai <;> simp
      · intro _
        cases ai <;> simp [Disk.write, hne]
      · intro _; simp [Disk.write]
      · intro d n hd
        have h1 : ¬ (d = p.dir ∧ n = fileOf p "png") := by
          rintro ⟨h1, h2⟩; exact (hd h1).2 trivial h2
        have h2 : ¬ (d = p.dir ∧ n = fileOf p "pdf") := by
          rintro ⟨h1, h2⟩; exact (hd h1).1 trivial h2
        cases ai <;> simp [Disk.write, h1, h2]

/-- C188: a call that is not accepted raises and writes nothing; (violated) if only the PNG was asked for with `add_info`, the
figure nevertheless keeps the stamp. -/
theorem C188_refused (arg : FigArg) (isPath : Bool) (p : FPath) (o : SaveOpt) (now : Nat) (s : SaveSt) (h : ¬ Accepted arg isPath p o) :
    ∃ e s', save arg isPath p o now s = (.error e, s') ∧ s'.disk = s.disk ∧
      (e = if arg = .other ∨ isPath = false then .assertionError else if p.name = [] then .valueError else .typeError) ∧
      s'.stamps = s.stamps ++ (if arg ≠ .other ∧ isPath = true ∧ o.pdf = false ∧ o.addInfo = true then [now] else []) := by
  unfold Accepted at h
  unfold save
  by_cases ha : arg = .other
  · exact ⟨.assertionError, s, by simp [ha], rfl, by simp [ha], by simp [ha]⟩
  · by_cases hp : isPath = true
    · have hk : (o.pdf = true ∨ o.png = true) ∧ ¬ (p.name ≠ [] ∧ o.format = false) := by
        by_contra hc
        apply h
        refine ⟨ha, hp, fun hor => ?_⟩
        by_contra hc'
        exact hc ⟨hor, hc'⟩
      obtain ⟨hor, hbad⟩ := hk
      rw [if_neg ha, hp]
      simp only [Bool.not_true, Bool.false_eq_true, if_false]
      by_cases hpdf : o.pdf = true
      · obtain ⟨e, he, hee⟩ := savefig_err hbad ['.', 'p', 'd', 'f'] s
        rw [if_pos hpdf, he]
        refine ⟨e, s, rfl, rfl, ?_, by simp [hpdf]⟩
        rw [if_neg (by simp [ha])]; exact hee
      · have hpng : o.png = true := hor.resolve_left hpdf
        rw [if_neg hpdf]
        simp only [hpng, if_true]
        obtain ⟨e, he, hee⟩ := savefig_err hbad ['.', 'p', 'n', 'g'] (if o.addInfo = true then (⟨s.stamps ++ [now], s.disk⟩ : SaveSt) else s)
        rw [he]
        refine ⟨e, _, rfl, ?_, ?_, ?_⟩
        · cases o.addInfo <;> rfl
        · rw [if_neg (by simp [ha])]; exact hee
        · have : o.pdf = false := by simpa using hpdf
          cases hb : o.addInfo <;> simp [ha, this]
    · have hp' : isPath = false := by simpa using hp
      exact ⟨.assertionError, s, by simp [ha, hp'], rfl, by simp [hp'], by simp [hp']⟩

/-- the times of the calls that stamped the figure -/
def stamped (calls : List (FPath × SaveOpt × Nat)) : List Nat :=
  (calls.filter (fun c => c.2.1.png && c.2.1.addInfo)).map (fun c => c.2.2)

theorem saves_stamps (calls : List (FPath × SaveOpt × Nat)) : ∀ s : SaveSt,
    (∀ c ∈ calls, Accepted .figure true c.1 c.2.1) → (saves calls s).stamps = s.stamps ++ stamped calls := by
  induction calls with
  | nil => intro s _; simp [saves, stamped]
  | cons c cs ih =>
    intro s h
    obtain ⟨s', hs, h1, _⟩ := C188_writes .figure true c.1 c.2.1 c.2.2 s (h c (by simp))
    have : saves (c :: cs) s = saves cs s' := by
      show saves cs (save .figure true c.1 c.2.1 c.2.2 s).2 = _
      rw [hs]
    rw [this, ih s' (fun c hc => h c (by simp [hc])), h1]
    by_cases hb : (c.2.1.png = true ∧ c.2.1.addInfo = true)
    · simp [stamped, hb]
    · have : (c.2.1.png && c.2.1.addInfo) = false := by
        rw [Bool.eq_false_iff]; simpa using hb
      simp [stamped, hb, this]

/-- C188 over the life of a figure (violated: "save the PDF without the timestamp"): after any series of accepted saves, the PDF of the
next one carries the stamps of all earlier saves; it is free of stamps exactly if none of them stamped. -/
theorem C188_history (calls : List (FPath × SaveOpt × Nat)) (p : FPath) (o : SaveOpt) (now : Nat) (d : Disk)
    (h : ∀ c ∈ calls, Accepted .figure true c.1 c.2.1) (hl : Accepted .figure true p o) (hpdf : o.pdf = true) :
    (saves (calls ++ [(p, o, now)]) ⟨[], d⟩).disk p.dir (fileOf p "pdf") = some (stamped calls) ∧
    (stamped calls = [] ↔ ∀ c ∈ calls, ¬ (c.2.1.png = true ∧ c.2.1.addInfo = true)) := by
  constructor
  · have : saves (calls ++ [(p, o, now)]) ⟨[], d⟩ = (save .figure true p o now (saves calls ⟨[], d⟩)).2 := by
      simp [saves, List.foldl_append]
    rw [this]
    obtain ⟨s', hs, _, h2, _⟩ := C188_writes .figure true p o now (saves calls ⟨[], d⟩) hl
    rw [hs]
    simp only []
    rw [h2 hpdf, saves_stamps calls _ h]
    simp
  · simp [stamped]

/-- C188: with undotted base names, later saves under other names leave a figure's files alone. -/
theorem C188_kept (p : FPath) (hp : '.' ∉ p.name) (c : List Nat) (ext : String) (hext : ext = "pdf" ∨ ext = "png")
    (calls : List (FPath × SaveOpt × Nat)) : ∀ s : SaveSt,
    (∀ q ∈ calls, Accepted .figure true q.1 q.2.1 ∧ '.' ∉ q.1.name ∧ (q.1.dir = p.dir → q.1.name ≠ p.name)) →
    s.disk p.dir (fileOf p ext) = some c → (saves calls s).disk p.dir (fileOf p ext) = some c := by
  induction calls with
  | nil => intro s _ h; exact h
  | cons q qs ih =>
    intro s h hs
    obtain ⟨hacc, hq, hne⟩ := h q (by simp)
    obtain ⟨s', hs', _, _, _, hkeep⟩ := C188_writes .figure true q.1 q.2.1 q.2.2 s hacc
    have : saves (q :: qs) s = saves qs s' := by
      show saves qs (save .figure true q.1 q.2.1 q.2.2 s).2 = _
      rw [hs']
    rw [this]
    apply ih s' (fun q hq => h q (by simp [hq]))
    rw [hkeep, hs]
    intro hd
    have key : ∀ e : String, e = "pdf" ∨ e = "png" → fileOf p ext ≠ fileOf q.1 e := by
      intro e he heq
      unfold fileOf at heq
      rw [stem_dotless _ hp, stem_dotless _ hq] at heq
      have hlen : p.name.length = q.1.name.length := by
        have := congrArg List.length heq
        rcases hext with rfl | rfl <;> rcases he with rfl | rfl <;> simpa using this
      exact hne hd.symm (List.append_inj_left heq hlen).symm
    exact ⟨fun _ => key _ (Or.inl rfl), fun _ => key _ (Or.inr rfl)⟩

/-- C188: each panel's share of the figure is the base size times the scale, whatever the grid. -/
theorem C188_subplots (nrows ncols : Nat) (hr : 0 < nrows) (hc : 0 < ncols) (sw sh w h : ℝ) :
    ∃ W H : ℝ, figsize nrows ncols (.fin sw) (.fin sh) (.fin w, .fin h) = (.fin W, .fin H) ∧
      W / ncols = sw * w ∧ H / nrows = sh * h := by
  refine ⟨(sw * ncols) * w, (sh * nrows) * h, by simp only [figsize, Fl.fin_mul], ?_, ?_⟩
  · have : (ncols : ℝ) ≠ 0 := by positivity
    field_simp
  · have : (nrows : ℝ) ≠ 0 := by positivity
    field_simp

/-- non-vacuity: `n_0.5` and `n_0.7` share their PDF, and a second save of a figure has a stamped PDF -/
example : withSuffix "n_0.5".toList ".pdf".toList = .ok "n_0.pdf".toList ∧
    withSuffix "n_0.7".toList ".pdf".toList = .ok "n_0.pdf".toList := by decide +kernel

example : Accepted .figure true ⟨"figs", "density".toList⟩ {} ∧
    stamped [(⟨"figs", "density".toList⟩, {}, 5)] = [5] := by
  refine ⟨⟨by decide, rfl, fun _ => ⟨by decide, rfl⟩⟩, by decide⟩

/-! ### C189: the history of a selection -/

/-- the text that describes the drags so far -/
def lastText (cs : List Patch) : SelText :=
  match cs.getLast? with
  | none => .initial
  | some c => .patch cs.length c

/-- C189: while the selection runs, the corners are the dragged rectangles in order, one rectangle is drawn for each, and the text
numbers the last one correctly, whatever else was in the axes before. -/
theorem C189_selecting (S : Sampler) (logx logy : Bool) (data : List Datum) (minor rects : Nat) (s : Sel)
    (hs : Sel.new minor rects = .ok s) (cs : List Patch) :
    let s' := s.run S logx logy data (cs.map .select)
    s'.corners = cs ∧ s'.numPatches = cs.length ∧ s'.drawn = rects + cs.length ∧ s'.connected = true ∧
    s'.text = lastText cs := by
  have h0 : s = ⟨rects, [], rects, .initial, [], [], true⟩ := by
    unfold Sel.new at hs
    split at hs
    · cases hs
    · cases hs; rfl
  subst h0
  induction cs using List.reverseRecOn with
  | nil => simp [Sel.run, Sel.numPatches, lastText]
  | append_singleton cs c ih =>
    simp only [] at ih ⊢
    obtain ⟨h1, h2, h3, h4, h5⟩ := ih
    have : Sel.run S logx logy data ⟨rects, [], rects, .initial, [], [], true⟩ ((cs ++ [c]).map .select) =
        Sel.step S logx logy data (Sel.run S logx logy data ⟨rects, [], rects, .initial, [], [], true⟩ (cs.map .select)) (.select c) := by
      simp [Sel.run, List.foldl_append]
    rw [this]
    obtain ⟨A, hA⟩ : ∃ A, A = Sel.run S logx logy data ⟨rects, [], rects, .initial, [], [], true⟩ (cs.map .select) := ⟨_, rfl⟩
    rw [← hA] at h1 h2 h3 h4 ⊢
    unfold Sel.step
    simp only [h4, if_true]
    unfold Sel.numPatches at h2 ⊢
    simp only []
    refine ⟨by rw [h1], ?_, ?_, trivial, ?_⟩
    · simp only [List.length_append, List.length_singleton]; push_cast at h2 ⊢; linarith
    · simp only [List.length_append, List.length_singleton]; omega
    · unfold lastText
      simp only [List.getLast?_append, List.getLast?_singleton, Option.some_or, List.length_append, List.length_singleton]
      congr 1
      push_cast at h2 ⊢; linarith

/-- the patches without data -/
noncomputable def emptyPatches (S : Sampler) (n : Nat) (logx logy : Bool) (data : List Datum) (cs : List Patch) : Nat :=
  (sampleData S n logx logy data none cs).2.length

theorem run_append (S : Sampler) (logx logy : Bool) (data : List Datum) (s : Sel) (a b : List SelEv) :
    s.run S logx logy data (a ++ b) = (s.run S logx logy data a).run S logx logy data b := by
  simp [Sel.run, List.foldl_append]

/-- C189 (violated): after `k + 1` times disconnecting, the summary reports as number of patches the number of dragged rectangles plus
`k + 1` times the number of those without data; later drags do not count. The reported samples and empty patches are those of
`sample_data` over all drags. -/
theorem C189_summary (S : Sampler) (logx logy : Bool) (data : List Datum) (minor rects n : Nat) (s : Sel)
    (hs : Sel.new minor rects = .ok s) (cs late : List Patch) (k : Nat) :
    let s' := s.run S logx logy data (cs.map .select ++ List.replicate (k + 1) (.disconnect n) ++ late.map .select)
    s'.text = .final (cs.length + (k + 1) * emptyPatches S n logx logy data cs) n
      (sampleData S n logx logy data none cs).1.length (emptyPatches S n logx logy data cs) ∧
    s'.corners = cs ∧ s'.sampled = (sampleData S n logx logy data none cs).1 ∧ s'.connected = false := by
  simp only []
  obtain ⟨h1, h2, h3, h4, _⟩ := C189_selecting S logx logy data minor rects s hs cs
  rw [run_append, run_append]
  obtain ⟨A, hA⟩ : ∃ A, A = s.run S logx logy data (cs.map .select) := ⟨_, rfl⟩
  rw [← hA] at h1 h2 h3 h4 ⊢
  have hk : ∀ k, let B := A.run S logx logy data (List.replicate (k + 1) (.disconnect n))
      B.text = .final (cs.length + (k + 1) * emptyPatches S n logx logy data cs) n
        (sampleData S n logx logy data none cs).1.length (emptyPatches S n logx logy data cs) ∧
      B.corners = cs ∧ B.sampled = (sampleData S n logx logy data none cs).1 ∧ B.connected = false ∧
      B.numPatches = cs.length + (k + 1) * emptyPatches S n logx logy data cs := by
    intro k
    induction k with
    | zero =>
      show _ ∧ _
      simp only [Sel.run, List.replicate, List.foldl_cons, List.foldl_nil, Sel.step, h1]
      unfold Sel.numPatches at h2 ⊢
      unfold emptyPatches
      simp only []
      refine ⟨?_, trivial, trivial, trivial, ?_⟩
      · congr 1; push_cast; linarith
      · push_cast; linarith
    | succ k ih =>
      simp only [] at ih ⊢
      rw [List.replicate_succ' (n := k + 1), run_append]
      obtain ⟨B, hB⟩ : ∃ B, B = A.run S logx logy data (List.replicate (k + 1) (.disconnect n)) := ⟨_, rfl⟩
      rw [← hB] at ih ⊢
      obtain ⟨g1, g2, g3, g4, g5⟩ := ih
      simp only [Sel.run, List.foldl_cons, List.foldl_nil, Sel.step, g2]
      unfold Sel.numPatches at g5 ⊢
      unfold emptyPatches at g5 ⊢
      simp only []
      refine ⟨?_, trivial, trivial, trivial, ?_⟩
      · congr 1; push_cast at g5 ⊢; linarith
      · push_cast at g5 ⊢; linarith
  obtain ⟨g1, g2, g3, g4, _⟩ := hk k
  obtain ⟨B, hB⟩ : ∃ B, B = A.run S logx logy data (List.replicate (k + 1) (.disconnect n)) := ⟨_, rfl⟩
  rw [← hB] at g1 g2 g3 g4 ⊢
  have hlate : B.run S logx logy data (late.map .select) = B := by
    induction late with
    | nil => rfl
    | cons c cs ih =>
      show (Sel.step S logx logy data B (.select c)).run S logx logy data (cs.map .select) = B
      have : Sel.step S logx logy data B (.select c) = B := by
        simp [Sel.step, g4]
      rw [this, ih]
  rw [hlate]
  exact ⟨g1, g2, g3, g4⟩

/-- C189: a patch counts as empty exactly if no datum lies in it, so the reported number of patches is right exactly if every dragged
rectangle holds data. -/
theorem C189_right_iff (S : Sampler) (hS : S.Sound) (n : Nat) (hn : 0 < n) (logx logy : Bool) (data : List Datum)
    (hu : (data.map Datum.label).Nodup) (cs : List Patch) :
    (emptyPatches S n logx logy data cs = 0 ↔ ∀ c ∈ cs, ∃ l, Inside logx logy data c l) := by
  unfold emptyPatches
  obtain ⟨_, _, h3, _⟩ := C135_sample S hS n hn logx logy data hu cs
  rw [List.length_eq_zero_iff]
  constructor
  · intro h c hc
    by_contra hcon
    have := (h3 c hc).mpr (fun l hl => hcon ⟨l, hl⟩)
    rw [h] at this
    cases this
  · intro h
    rw [List.eq_nil_iff_forall_not_mem]
    intro c hc
    have hc' : c ∈ cs := by
      rw [sampleData_eq] at hc
      exact (List.mem_filter.mp hc).1
    obtain ⟨l, hl⟩ := h c hc'
    exact (h3 c hc').mp hc l hl

/-- C189 (violated: "Spectra Selected" should count spectra): dragging the same rectangle twice reports every sampled spectrum twice,
because both draws use the same random state. -/
theorem C189_double_count (S : Sampler) (hS : S.Sound) (n : Nat) (hn : 0 < n) (logx logy : Bool) (data : List Datum)
    (hu : (data.map Datum.label).Nodup) (c : Patch) (hin : ∃ l, Inside logx logy data c l) :
    (sampleData S n logx logy data none [c, c]).1.length = 2 * (sampleData S n logx logy data none [c, c]).1.dedup.length ∧
    0 < (sampleData S n logx logy data none [c, c]).1.dedup.length := by
  obtain ⟨hs1, hs2⟩ := samplePatch_spec S hS n hn logx logy data hu c
  have hne : samplePatch S n logx logy data c ≠ none := by
    rw [Ne, hs1]; intro h; obtain ⟨l, hl⟩ := hin; exact h l hl
  obtain ⟨out, hout⟩ := Option.ne_none_iff_exists'.mp hne
  obtain ⟨hnd, _, hnn, _, _⟩ := hs2 out hout
  have e : (sampleData S n logx logy data none [c, c]).1 = (out ++ out).insertionSort (· ≤ ·) := by
    rw [sampleData_eq]
    have hrem : remaining data none = data := rfl
    rw [hrem]
    simp [hout]
  rw [e]
  have hd : ((out ++ out).insertionSort (· ≤ ·)).dedup.Perm out := by
    have h1 : ((out ++ out).insertionSort (· ≤ ·)).dedup.Perm (out ++ out).dedup := (List.perm_insertionSort _ _).dedup
    have h2 : (out ++ out).dedup.Perm out := by
      rw [List.perm_ext_iff_of_nodup (List.nodup_dedup _) hnd]
      intro a; simp
    exact h1.trans h2
  rw [hd.length_eq, List.length_insertionSort, List.length_append]
  refine ⟨by ring, List.length_pos_of_ne_nil hnn⟩

/-- C189 (violated): with matplotlib 3.7 or later no selection can be started at all; the pinned version is 3.10. -/
theorem C189_construct (minor rects : Nat) :
    (7 ≤ minor → Sel.new minor rects = .error .typeError) ∧ (minor < 7 → ∃ s, Sel.new minor rects = .ok s) := by
  unfold Sel.new
  constructor
  · intro h; rw [if_pos h]
  · intro h; rw [if_neg (by omega)]; exact ⟨_, rfl⟩

/-- non-vacuity: a datum inside a patch of a linear plot -/
example : Inside false false [⟨4, .fin 1, .fin 2⟩] ⟨0, 1, 1, 3⟩ 4 := by
  refine ⟨⟨4, .fin 1, .fin 2⟩, by simp, rfl, 1, 2, rfl, rfl, ?_, ?_⟩ <;> simp [Between]; norm_num

end PlotTools
end SW
