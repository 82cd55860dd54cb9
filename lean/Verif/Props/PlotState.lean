import Verif.PlotState

/-!
# Properties of labels, logarithmic axes and save paths of the plots (C154-C157)
-/

namespace SW
namespace Plt

/-! ### C154: labels -/

/-- a `set_labels` call the class accepts: no unknown keyword, and no z label for a 1-D histogram -/
def Accepted (k : Kind) (kw : Kw) : Prop := kw.extra = false ∧ (k = .hist1d → kw.z = none)

instance (k : Kind) (kw : Kw) : Decidable (Accepted k kw) := by unfold Accepted; infer_instance

/-- the values given for one label by the accepted calls of a history, oldest first -/
def given (k : Kind) (f : Kw → Option Lbl) (ops : List Op) : List Lbl :=
  ops.filterMap (fun o => match o with
    | .labels kw => if Accepted k kw then f kw else none
    | _ => none)

/-- a finished histogram has a normalisation attribute; scatter and spiral plots never have one -/
def Plot.Ready (p : Plot) : Prop := p.kind = .hist1d ∨ p.kind = .hist2d → ∃ n, p.axnorm = some n

theorem baseSetLabels_ok (kw : Kw) (h : Heap) (p : Plot) (he : kw.extra = false) :
    (baseSetLabels kw h p).2 = none ∧ (baseSetLabels kw h p).1.x = kw.x.getD p.x ∧ (baseSetLabels kw h p).1.y = kw.y.getD p.y ∧
    (baseSetLabels kw h p).1.z = kw.z.getD p.z ∧ (baseSetLabels kw h p).1.kind = p.kind ∧
    (baseSetLabels kw h p).1.logx = p.logx ∧ (baseSetLabels kw h p).1.logy = p.logy ∧
    (baseSetLabels kw h p).1.axnorm = p.axnorm := by
  unfold baseSetLabels
  rw [he]
  cases kw.autoPath <;> simp

theorem baseSetLabels_err (kw : Kw) (h : Heap) (p : Plot) (he : kw.extra = true) :
    baseSetLabels kw h p = (p, some .keyError) := by
  unfold baseSetLabels
  rw [he]; rfl

/-- `set_labels` is `Base.set_labels` on a heap in which the count label was rebuilt -/
theorem setLabels_eq (kw : Kw) (h : Heap) (p : Plot) (hr : p.Ready) :
    (p.kind = .hist1d ∧ kw.z ≠ none ∧ setLabels kw h p = ((h, p), some .valueError)) ∨
    ((p.kind = .hist1d → kw.z = none) ∧ ∃ (h' : Heap) (kw' : Kw), (∀ d, kw'.x.getD d = kw.x.getD d) ∧ kw'.y.getD p.y = kw.y.getD p.y ∧
      kw'.z.getD p.z = kw.z.getD p.z ∧ kw'.extra = kw.extra ∧ kw'.autoPath = kw.autoPath ∧
      setLabels kw h p = ((h', (baseSetLabels kw' h' p).1), (baseSetLabels kw' h' p).2) ∧
      (∀ j, (∀ i, (if p.kind = .hist1d then kw.y.getD p.y else kw.z.getD p.z) = .count i → j ≠ i) → h' j = h j) ∧
      (p.kind = .hist1d → ∀ i, kw.y.getD p.y = .count i → some (h' i) = p.axnorm) ∧
      (p.kind = .hist2d → ∀ i, kw.z.getD p.z = .count i → some (h' i) = p.axnorm)) := by
  obtain ⟨k, x, y, z, lx, ly, ax, pa⟩ := p
  cases k with
  | hist1d =>
    obtain ⟨n, hn⟩ := hr (Or.inl rfl)
    simp only at hn
    subst hn
    by_cases hz : kw.z = none
    · right
      refine ⟨fun _ => hz, ?_⟩
      simp only
      unfold setLabels
      simp only [hz, Option.isSome_none, Bool.false_eq_true, if_false]
      rcases hy : kw.y.getD y with _ | s | q | i
      · exact ⟨h, { kw with y := some .none }, fun _ => rfl, by simp, by simp [hz], rfl, rfl, by simp [hz], fun _ _ => rfl, by simp, by simp⟩
      · exact ⟨h, { kw with y := some (.str s) }, fun _ => rfl, by simp, by simp [hz], rfl, rfl, by simp [hz], fun _ _ => rfl, by simp, by simp⟩
      · exact ⟨h, { kw with y := some (.obj q) }, fun _ => rfl, by simp, by simp [hz], rfl, rfl, by simp [hz], fun _ _ => rfl, by simp, by simp⟩
      · refine ⟨h.put i n, { kw with y := some (.count i) }, fun _ => rfl, by simp, by simp [hz], rfl, rfl, by simp [hz], ?_, ?_, by simp⟩
        · intro j hj
          have : j ≠ i := hj i (by simp)
          simp [Heap.put, this]
        · intro _ i' hi
          simp only [Lbl.count.injEq] at hi
          subst hi
          simp [Heap.put]
    · left
      refine ⟨rfl, hz, ?_⟩
      unfold setLabels
      obtain ⟨v, hv⟩ := Option.ne_none_iff_exists'.mp hz
      simp [hv]
  | hist2d =>
    obtain ⟨n, hn⟩ := hr (Or.inr rfl)
    simp only at hn
    subst hn
    right
    refine ⟨by simp, ?_⟩
    simp only
    unfold setLabels
    simp only
    rcases hz : kw.z.getD z with _ | s | q | i
    · exact ⟨h, { kw with z := some .none }, fun _ => rfl, by simp, by simp, rfl, rfl, by simp, fun _ _ => rfl, by simp, by simp⟩
    · exact ⟨h, { kw with z := some (.str s) }, fun _ => rfl, by simp, by simp, rfl, rfl, by simp, fun _ _ => rfl, by simp, by simp⟩
    · exact ⟨h, { kw with z := some (.obj q) }, fun _ => rfl, by simp, by simp, rfl, rfl, by simp, fun _ _ => rfl, by simp, by simp⟩
    · refine ⟨h.put i n, { kw with z := some (.count i) }, fun _ => rfl, by simp, by simp, rfl, rfl, by simp, ?_, by simp, ?_⟩
      · intro j hj
        have : j ≠ i := hj i (by simp)
        simp [Heap.put, this]
      · intro _ i' hi
        simp only [Lbl.count.injEq] at hi
        subst hi
        simp [Heap.put]
  | scatter =>
    exact Or.inr ⟨by simp, h, kw, fun _ => rfl, rfl, rfl, rfl, rfl, rfl, fun _ _ => rfl, by simp, by simp⟩
  | spiral =>
    exact Or.inr ⟨by simp, h, kw, fun _ => rfl, rfl, rfl, rfl, rfl, rfl, fun _ _ => rfl, by simp, by simp⟩

/-- C154: a rejected call raises (ValueError for a z label on a 1-D histogram, else KeyError) and leaves labels, scales, normalisation
and path alone; an accepted one succeeds, sets exactly the labels named in it and keeps the others. -/
theorem C154_set_labels (kw : Kw) (h : Heap) (p : Plot) (hr : p.Ready) :
    (Accepted p.kind kw → (setLabels kw h p).2 = none ∧ (setLabels kw h p).1.2.x = kw.x.getD p.x ∧
      (setLabels kw h p).1.2.y = kw.y.getD p.y ∧ (setLabels kw h p).1.2.z = kw.z.getD p.z) ∧
    (¬ Accepted p.kind kw → (setLabels kw h p).1.2 = p ∧
      (setLabels kw h p).2 = some (if p.kind = .hist1d ∧ kw.z ≠ none then .valueError else .keyError)) ∧
    (setLabels kw h p).1.2.kind = p.kind ∧ (setLabels kw h p).1.2.logx = p.logx ∧ (setLabels kw h p).1.2.logy = p.logy ∧
    (setLabels kw h p).1.2.axnorm = p.axnorm := by
  rcases setLabels_eq kw h p hr with ⟨hk, hz, he⟩ | ⟨hk, h', kw', e1, e2, e3, e4, e5, he, _⟩
  · rw [he]
    refine ⟨fun ha => absurd (ha.2 hk) hz, fun _ => ⟨rfl, by simp [hk, hz]⟩, rfl, rfl, rfl, rfl⟩
  · rw [he]
    cases hx : kw.extra with
    | false =>
      have hx' : kw'.extra = false := e4.trans hx
      obtain ⟨b1, b2, b3, b4, b5, b6, b7, b8⟩ := baseSetLabels_ok kw' h' p hx'
      refine ⟨fun _ => ⟨b1, by rw [b2, e1], by rw [b3, e2], by rw [b4, e3]⟩, fun hn => absurd ⟨hx, hk⟩ hn, b5, b6, b7, b8⟩
    | true =>
      have hx' : kw'.extra = true := e4.trans hx
      rw [baseSetLabels_err kw' h' p hx']
      refine ⟨fun ha => ?_, fun _ => ⟨rfl, ?_⟩, rfl, rfl, rfl, rfl⟩
      · have := ha.1; rw [hx] at this; simp at this
      · rw [if_neg (fun hc => hc.2 (hk hc.1))]

theorem step_frame (o : Op) (s : Heap × Plot) (hr : s.2.Ready) :
    (step o s).1.2.kind = s.2.kind ∧ (step o s).1.2.Ready ∧
    ((∀ kw, o ≠ .labels kw) → (step o s).1.2.x = s.2.x ∧ (step o s).1.2.y = s.2.y ∧ (step o s).1.2.z = s.2.z) := by
  obtain ⟨h, p⟩ := s
  cases o with
  | labels kw =>
    obtain ⟨_, _, a, b, c, d⟩ := C154_set_labels kw h p hr
    refine ⟨a, ?_, fun hn => absurd rfl (hn kw)⟩
    intro hk
    show ∃ n, (setLabels kw h p).1.2.axnorm = some n
    rw [d]
    exact hr (by rw [← a]; exact hk)
  | log x y => exact ⟨rfl, hr, fun _ => ⟨rfl, rfl, rfl⟩⟩
  | path n sc => exact ⟨rfl, hr, fun _ => ⟨rfl, rfl, rfl⟩⟩
  | axnorm n =>
    show (setAxnorm n h p).1.2.kind = p.kind ∧ (setAxnorm n h p).1.2.Ready ∧ (_ → (setAxnorm n h p).1.2.x = p.x ∧
      (setAxnorm n h p).1.2.y = p.y ∧ (setAxnorm n h p).1.2.z = p.z)
    unfold setAxnorm
    split
    · exact ⟨rfl, hr, fun _ => ⟨rfl, rfl, rfl⟩⟩
    · split
      · exact ⟨rfl, fun _ => ⟨_, rfl⟩, fun _ => ⟨rfl, rfl, rfl⟩⟩
      · exact ⟨rfl, fun _ => ⟨_, rfl⟩, fun _ => ⟨rfl, rfl, rfl⟩⟩

theorem run_ready (ops : List Op) : ∀ s : Heap × Plot, s.2.Ready → (run ops s).2.Ready ∧ (run ops s).2.kind = s.2.kind := by
  induction ops with
  | nil => intro s h; exact ⟨h, rfl⟩
  | cons o os ih =>
    intro s h
    obtain ⟨a, b, _⟩ := step_frame o s h
    obtain ⟨c, d⟩ := ih (step o s).1 b
    exact ⟨c, d.trans a⟩

theorem getLast?_getD_cons (a : Lbl) (l : List Lbl) (d : Lbl) : (a :: l).getLast?.getD d = l.getLast?.getD a := by
  cases l with
  | nil => rfl
  | cons b l => rw [List.getLast?_cons_cons]; rw [List.getLast?_eq_getLast_of_ne_nil (by simp)]; rfl

/-- C154: after any history of calls, some of them rejected, each label is the last one given in an accepted call, or the original one. -/
theorem C154_history (ops : List Op) : ∀ (s : Heap × Plot), s.2.Ready →
    (run ops s).2.x = (given s.2.kind Kw.x ops).getLast?.getD s.2.x ∧
    (run ops s).2.y = (given s.2.kind Kw.y ops).getLast?.getD s.2.y ∧
    (run ops s).2.z = (given s.2.kind Kw.z ops).getLast?.getD s.2.z := by
  induction ops with
  | nil => intro s _; exact ⟨rfl, rfl, rfl⟩
  | cons o os ih =>
    intro s hr
    obtain ⟨hk, hr', hf⟩ := step_frame o s hr
    obtain ⟨i1, i2, i3⟩ := ih (step o s).1 hr'
    rw [hk] at i1 i2 i3
    show (run os (step o s).1).2.x = _ ∧ (run os (step o s).1).2.y = _ ∧ (run os (step o s).1).2.z = _
    rw [i1, i2, i3]
    by_cases hl : ∃ kw, o = .labels kw
    · obtain ⟨kw, rfl⟩ := hl
      obtain ⟨hacc, hrej, _⟩ := C154_set_labels kw s.1 s.2 hr
      by_cases ha : Accepted s.2.kind kw
      · obtain ⟨_, a1, a2, a3⟩ := hacc ha
        have key : ∀ (f : Kw → Option Lbl) (v v' : Lbl), v' = (f kw).getD v →
            (given s.2.kind f os).getLast?.getD v' = (given s.2.kind f (.labels kw :: os)).getLast?.getD v := by
          intro f v v' hv
          unfold given
          rw [List.filterMap_cons]
          simp only [ha, if_true]
          cases hf : f kw with
          | none => simp [hv, hf]
          | some w => rw [getLast?_getD_cons]; simp [hv, hf]
        exact ⟨key Kw.x _ _ a1, key Kw.y _ _ a2, key Kw.z _ _ a3⟩
      · obtain ⟨e, _⟩ := hrej ha
        have e' : (step (.labels kw) s).1.2 = s.2 := e
        rw [e']
        simp [given, ha]
    · have hn : ∀ kw, o ≠ .labels kw := fun kw e => hl ⟨kw, e⟩
      obtain ⟨f1, f2, f3⟩ := hf hn
      rw [f1, f2, f3]
      cases o with
      | labels kw => exact absurd rfl (hn kw)
      | log x y => simp [given]
      | path a b => simp [given]
      | axnorm n => simp [given]

/-- construction gives a ready plot -/
theorem mkHist2d_ready (h : Heap) (id : Nat) (logx logy : Bool) (axnorm : Option Txt) (zNone : Bool) (s : Heap × Plot)
    (hs : mkHist2d h id logx logy axnorm zNone = .ok s) : s.2.Ready := by
  unfold mkHist2d at hs
  simp only at hs
  split at hs
  · simp at hs
  · split at hs
    · simp at hs
    · rename_i h2 p2 heq
      split at hs
      · rename_i s' hax
        simp only [Except.ok.injEq] at hs
        subst hs
        intro _
        unfold setAxnorm at hax
        split at hax
        · simp at hax
        · split at hax
          · simp only [Prod.mk.injEq, and_true] at hax; rw [← hax]; exact ⟨_, rfl⟩
          · simp only [Prod.mk.injEq, and_true] at hax; rw [← hax]; exact ⟨_, rfl⟩
      · simp at hs

/-- non-vacuity: a 2-D histogram, an accepted, a rejected and another accepted call -/
example : ∃ s, mkHist2d (fun _ => none) 0 true false (some ['C']) true = .ok s ∧ s.2.Ready ∧
    ¬ Accepted .hist2d { x := some (.str ['a']), extra := true } ∧
    (run [.labels { x := some (.str ['a']) }, .labels { x := some (.str ['b']), extra := true }, .labels { y := some (.str ['c']) }] s).2.x
      = .str ['a'] := by
  refine ⟨_, rfl, ?_, by decide, by decide +kernel⟩
  exact mkHist2d_ready (fun _ => none) 0 true false (some ['C']) true _ rfl

/-! ### C155: the save path -/

/-- text usable as one path component: not empty, not ".", no "/", no blank, and not the word "None" -/
def Plain (s : Txt) : Prop := s ≠ [] ∧ s ≠ ".".toList ∧ '/' ∉ s ∧ ' ' ∉ s ∧ s ≠ "None".toList

/-- the name of the class -/
def className : Kind → Txt
  | .hist1d => "Hist1D".toList
  | .hist2d => "Hist2D".toList
  | .scatter => "Scatter".toList
  | .spiral => "SpiralPlot2D".toList

/-- "logX" or "linX" -/
def xs (log : Bool) : Txt := (if log then "logX" else "linX").toList
/-- both scales, joined by a dash -/
def xys (lx ly : Bool) : Txt := xs lx ++ "-".toList ++ (if ly then "logY" else "linY").toList

theorem xs_eq (b : Bool) : scaleX b = xs b := by cases b <;> decide +kernel
theorem xys_eq (a b : Bool) : scaleX a ++ '-' :: scaleY b = xys a b := by cases a <;> cases b <;> decide +kernel
theorem name_eq (k : Kind) : parsePath k.name = ⟨false, [className k]⟩ := by cases k <;> decide +kernel

theorem split_plain (s : Txt) (h : '/' ∉ s) : Chars.split '/' s = [s] := by
  induction s with
  | nil => rfl
  | cons c cs ih =>
    rw [List.mem_cons, not_or] at h
    rw [Chars.split, if_neg (fun e => h.1 e.symm), ih h.2]

theorem map_plain (s : Txt) (h : ' ' ∉ s) : s.map (fun c => if c = ' ' then '-' else c) = s := by
  induction s with
  | nil => rfl
  | cons c cs ih =>
    rw [List.mem_cons, not_or] at h
    rw [List.map_cons, ih h.2, if_neg (fun e => h.1 e.symm)]

theorem parse_plain (s : Txt) (h0 : s ≠ []) (h1 : s ≠ ".".toList) (h : '/' ∉ s) : parsePath s = ⟨false, [s]⟩ := by
  unfold parsePath
  rw [split_plain s h]
  have h2 : s.head? ≠ some '/' := by
    intro e
    exact h (List.mem_of_mem_head? (by rw [e]; simp))
  have h1' : s ≠ ['.'] := fun e => h1 (by rw [e]; decide)
  simp [h2, h0, h1']

theorem lbl_plain (h : Heap) (d s : Txt) (hs : Plain s) : lblPath h d (.str s) = ⟨false, [s]⟩ := by
  obtain ⟨a, b, c, e, f⟩ := hs
  have f' : s ≠ ['N', 'o', 'n', 'e'] := fun hc => f (by rw [hc]; decide)
  unfold lblPath
  simp only
  rw [if_neg f', map_plain s e, parse_plain s a b c]

/-- the path that `set_path("auto")` gives -/
theorem auto_hist1d (h : Heap) (p : Plot) (hk : p.kind = .hist1d) (a b : Txt) (ha : Plain a) (hb : Plain b) (hx : p.x = .str a)
    (hy : p.y = .str b) : newPath h p .auto true = ⟨false, [className .hist1d, a, b, xs p.logx]⟩ := by
  unfold newPath pathStem
  simp only [if_true]
  rw [hk, hx, hy, lbl_plain h _ a ha, lbl_plain h _ b hb, name_eq, ← xs_eq]
  simp [PPath.div]

theorem auto_z (h : Heap) (p : Plot) (hk : p.kind ≠ .hist1d) (a b : Txt) (ha : Plain a) (hb : Plain b) (hx : p.x = .str a)
    (hy : p.y = .str b) (zs : List Txt) (hz : lblPath h ['z'] p.z = ⟨false, zs⟩) :
    newPath h p .auto true = addScaleZ (xys p.logx p.logy) ⟨false, [className p.kind, a, b] ++ zs⟩ := by
  unfold newPath pathStem
  simp only [if_true, if_neg hk]
  rw [hx, hy, lbl_plain h _ a ha, lbl_plain h _ b hb, name_eq, hz, ← xys_eq]
  simp [PPath.div]

/-- ends with "norm" -/
def EndsNorm (s : Txt) : Prop := "norm".toList <:+ s

theorem endsNorm_iff (s : Txt) : endsNorm s = true ↔ EndsNorm s := by
  unfold endsNorm EndsNorm
  rw [List.isPrefixOf_iff_prefix]
  rw [show (['m', 'r', 'o', 'n'] : List Char) = ("norm".toList).reverse by decide]
  exact List.reverse_prefix

theorem fresh_step (h : Heap) (p : Plot) (hr : p.Ready) (o : Op)
    (ho : (∃ kw, o = .labels kw ∧ Accepted p.kind kw ∧ kw.autoPath = true) ∨ o = .path .auto true) :
    (step o (h, p)).1.2.path = newPath (step o (h, p)).1.1 (step o (h, p)).1.2 .auto true := by
  rcases ho with ⟨kw, rfl, ha, hp⟩ | rfl
  · show (setLabels kw h p).1.2.path = newPath (setLabels kw h p).1.1 (setLabels kw h p).1.2 .auto true
    rcases setLabels_eq kw h p hr with ⟨hk, hz, _⟩ | ⟨_, h', kw', _, _, _, e4, e5, he, _⟩
    · exact absurd (ha.2 hk) hz
    · rw [he]
      unfold baseSetLabels
      rw [e4, ha.1, e5, hp]
      rfl
  · rfl

/-- C155: after an accepted `set_labels` (and after `set_path("auto")`) of a plot with plain text labels, the save path is
class/x/y/x-scale for a 1-D histogram, and class/x/y/z/scales for the others; if the z text ends with "norm" the scales are put in
front of it in the same component. -/
theorem C155_text_labels (h : Heap) (p : Plot) (hr : p.Ready) (o : Op)
    (ho : (∃ kw, o = .labels kw ∧ Accepted p.kind kw ∧ kw.autoPath = true) ∨ o = .path .auto true) (a b : Txt)
    (ha : Plain a) (hb : Plain b) :
    let q := (step o (h, p)).1.2
    q.x = .str a → q.y = .str b →
    (q.kind = .hist1d → q.path = ⟨false, ["Hist1D".toList, a, b, xs q.logx]⟩) ∧
    (q.kind ≠ .hist1d → ∀ c : Txt, Plain c → q.z = .str c →
      (¬ EndsNorm c → q.path = ⟨false, [className q.kind, a, b, c, xys q.logx q.logy]⟩) ∧
      (EndsNorm c → q.path = ⟨false, [className q.kind, a, b, xys q.logx q.logy ++ "-".toList ++ c]⟩)) ∧
    (q.kind ≠ .hist1d → ∀ i : Nat, q.z = .count i →
      ((step o (h, p)).1.1 i = none → q.path = ⟨false, [className q.kind, a, b, "count".toList, xys q.logx q.logy]⟩) ∧
      (∀ n : Txt, (step o (h, p)).1.1 i = some n →
        q.path = ⟨false, [className q.kind, a, b, "count".toList,
          xys q.logx q.logy ++ "-".toList ++ n.map Char.toUpper ++ "norm".toList]⟩)) := by
  have hfresh : (step o (h, p)).1.2.path = newPath (step o (h, p)).1.1 (step o (h, p)).1.2 .auto true := fresh_step h p hr o ho
  intro q hx hy
  change q.path = newPath (step o (h, p)).1.1 q .auto true at hfresh
  rw [hfresh]
  refine ⟨fun hk => auto_hist1d _ q hk a b ha hb hx hy, fun hk c hc hz => ?_, fun hk i hz => ?_⟩
  · rw [auto_z _ q hk a b ha hb hx hy [c] (by rw [hz]; exact lbl_plain _ _ c hc)]
    constructor
    · intro he
      rw [← endsNorm_iff] at he
      simp [addScaleZ, he]
    · intro he
      rw [← endsNorm_iff] at he
      simp [addScaleZ, he]
  · constructor
    · intro hn
      rw [auto_z _ q hk a b ha hb hx hy ["count".toList] (by rw [hz]; simp only [lblPath, hn]; decide)]
      have : endsNorm "count".toList = false := by decide
      simp [addScaleZ, endsNorm]
    · intro n hn
      rw [auto_z _ q hk a b ha hb hx hy ["count".toList, n.map Char.toUpper ++ "norm".toList] (by rw [hz]; simp only [lblPath, hn]; simp [countPath])]
      have : endsNorm (n.map Char.toUpper ++ "norm".toList) = true := by rw [endsNorm_iff]; exact List.suffix_append _ _
      simp only [addScaleZ]
      rw [show ([className q.kind, a, b] ++ ["count".toList, n.map Char.toUpper ++ "norm".toList]).getLast? = some (n.map Char.toUpper ++ "norm".toList) by simp]
      simp only [this, if_true]
      simp

/-- C155 (violated): changing a scale or the normalisation never changes the save path, so the path contradicts the plot until the
labels or the path are set again; in particular figures of differently scaled or normalised plots get the same path. -/
theorem C155_stale (ops : List Op) (hops : ∀ o ∈ ops, (∃ x y, o = .log x y) ∨ ∃ n, o = .axnorm n) : ∀ (s : Heap × Plot),
    (run ops s).2.path = s.2.path := by
  induction ops with
  | nil => intro s; rfl
  | cons o os ih =>
    intro s
    have ho := hops o (List.mem_cons_self ..)
    have hos : ∀ o ∈ os, (∃ x y, o = .log x y) ∨ ∃ n, o = .axnorm n := fun o h => hops o (List.mem_cons_of_mem _ h)
    show (run os (step o s).1).2.path = _
    rw [ih hos]
    rcases ho with ⟨x, y, rfl⟩ | ⟨n, rfl⟩
    · rfl
    · show (setAxnorm n s.1 s.2).1.2.path = _
      unfold setAxnorm
      split
      · rfl
      · split <;> rfl

/-- C155 (violated): a plot with an automatic path whose x scale is switched no longer has the path its labels and scales call for. -/
theorem C155_scale_wrong (h : Heap) (p : Plot) (hk : p.kind = .hist1d) (a b : Txt) (ha : Plain a) (hb : Plain b) (hx : p.x = .str a)
    (hy : p.y = .str b) (hp : p.path = newPath h p .auto true) :
    let q := (step (.log (some (!p.logx)) none) (h, p)).1.2
    q.logx = !p.logx ∧ q.path = ⟨false, ["Hist1D".toList, a, b, xs (!q.logx)]⟩ := by
  intro q
  refine ⟨rfl, ?_⟩
  show p.path = _
  rw [hp, auto_hist1d h p hk a b ha hb hx hy]
  have : q.logx = !p.logx := rfl
  rw [this, Bool.not_not]
  rfl

/-! ### C156: the count label -/

/-- the count label of a histogram names the histogram's normalisation -/
def InSync (s : Heap × Plot) : Prop := ∀ i, s.2.countLbl = .count i → some (s.1 i) = s.2.axnorm

theorem setAxnorm_countLbl (n : Option Txt) (h : Heap) (p : Plot) : (setAxnorm n h p).1.2.countLbl = p.countLbl := by
  unfold setAxnorm
  split
  · rfl
  · split <;> rfl

/-- C156: as long as no other plot shares its count label, after any history of calls, rejected ones included, the label names the
normalisation in force. -/
theorem C156_in_sync (ops : List Op) : ∀ (s : Heap × Plot), s.2.Ready → (s.2.kind = .hist1d ∨ s.2.kind = .hist2d) → InSync s →
    InSync (run ops s) := by
  induction ops with
  | nil => intro s _ _ h; exact h
  | cons o os ih =>
    intro s hr hk hs
    obtain ⟨hk', hr', _⟩ := step_frame o s hr
    refine ih (step o s).1 hr' (by rw [hk']; exact hk) ?_
    obtain ⟨h, p⟩ := s
    cases o with
    | log x y => exact hs
    | path a b => exact hs
    | axnorm n =>
      intro i hi
      show some ((setAxnorm n h p).1.1 i) = (setAxnorm n h p).1.2.axnorm
      change (setAxnorm n h p).1.2.countLbl = .count i at hi
      rw [setAxnorm_countLbl] at hi
      unfold setAxnorm
      split
      · rename_i e he
        exact hs i hi
      · rename_i m he
        split
        · rename_i j hj
          rw [hj] at hi
          simp only [Lbl.count.injEq] at hi
          subst hi
          simp [Heap.put]
        · rename_i hj
          exfalso
          exact hj i hi
    | labels kw =>
      intro i hi
      show some ((setLabels kw h p).1.1 i) = (setLabels kw h p).1.2.axnorm
      change (setLabels kw h p).1.2.countLbl = .count i at hi
      obtain ⟨hacc, hrej, k1, k2, k3, k4⟩ := C154_set_labels kw h p hr
      rw [k4]
      rcases setLabels_eq kw h p hr with ⟨_, _, he⟩ | ⟨hz, h', kw', e1, e2, e3, e4, e5, he, hframe, s1, s2⟩
      · rw [he] at hi ⊢; exact hs i hi
      · have hh : (setLabels kw h p).1.1 = h' := by rw [he]
        rw [hh]
        cases hx : kw.extra with
        | true =>
          have hp : (setLabels kw h p).1.2 = p := (hrej (fun ha => by have := ha.1; rw [hx] at this; simp at this)).1
          rw [hp] at hi
          by_cases hc : (if p.kind = .hist1d then kw.y.getD p.y else kw.z.getD p.z) = .count i
          · by_cases hk1 : p.kind = .hist1d
            · rw [if_pos hk1] at hc; exact s1 hk1 i hc
            · rw [if_neg hk1] at hc; exact s2 (hk.resolve_left hk1) i hc
          · have := hframe i (fun j hj hij => by subst hij; exact hc hj)
            rw [this]; exact hs i hi
        | false =>
          obtain ⟨_, b1, b2, b3⟩ := hacc ⟨hx, hz⟩
          unfold Plot.countLbl at hi
          rw [k1, b2, b3] at hi
          by_cases hk1 : p.kind = .hist1d
          · rw [if_pos hk1] at hi; exact s1 hk1 i hi
          · rw [if_neg hk1] at hi; exact s2 (hk.resolve_left hk1) i hi

/-- C156: every successfully constructed histogram starts in sync, with the normalisation asked for (first letter in 1-D, lower case). -/
theorem C156_constructed (h : Heap) (id : Nat) (lx ly : Bool) (n : Option Txt) (b : Bool) (s : Heap × Plot) :
    (mkHist1d h id lx n b = .ok s → InSync s ∧ s.2.Ready ∧ s.2.kind = .hist1d ∧ s.2.logx = lx ∧
      s.2.axnorm = some (n.map (fun _ => "d".toList)) ∧ s.2.y = (if b then .count id else .str "y".toList)) ∧
    (mkHist2d h id lx ly n b = .ok s → InSync s ∧ s.2.Ready ∧ s.2.kind = .hist2d ∧ s.2.logx = lx ∧ s.2.logy = ly ∧
      s.2.axnorm = some (n.map (List.map Char.toLower)) ∧ s.2.z = (if b then .count id else .str "z".toList)) := by
  constructor
  · intro hs
    unfold mkHist1d at hs
    cases n with
    | none =>
      cases b with
      | true =>
        simp only [setAxnorm, checkNorm, setLog, base0, Plot.countLbl, countNorm, setLabels, baseSetLabels, if_true, Except.ok.injEq] at hs
        simp at hs
        subst hs
        refine ⟨?_, fun _ => ⟨_, rfl⟩, rfl, rfl, rfl, rfl⟩
        intro i hi
        simp only [Plot.countLbl, Option.getD] at hi
        simp at hi
        subst hi
        simp [Heap.put]
      | false =>
        simp [setAxnorm, checkNorm, setLog, base0, Plot.countLbl, setLabels, baseSetLabels] at hs
        subst hs
        refine ⟨?_, fun _ => ⟨_, rfl⟩, rfl, rfl, rfl, rfl⟩
        intro i hi
        simp [Plot.countLbl] at hi
    | some t =>
      cases t with
      | nil => simp [setAxnorm, checkNorm, setLog, base0] at hs
      | cons c t =>
        by_cases hc : c.toLower = 'd'
        · cases b with
          | true =>
            by_cases hm : (c :: t).map Char.toLower ∈ norms
            · simp only [setAxnorm, checkNorm, hc, setLog, base0, Plot.countLbl, countNorm, if_pos hm, setLabels, baseSetLabels,
                if_true, Except.ok.injEq] at hs
              simp at hs
              subst hs
              refine ⟨?_, fun _ => ⟨_, rfl⟩, rfl, rfl, rfl, rfl⟩
              intro i hi
              simp [Plot.countLbl] at hi
              subst hi
              simp [Heap.put]
            · simp only [setAxnorm, checkNorm, hc, setLog, base0, Plot.countLbl, countNorm, if_neg hm, if_true] at hs
              simp at hs
          | false =>
            simp [setAxnorm, checkNorm, hc, setLog, base0, Plot.countLbl, setLabels, baseSetLabels] at hs
            subst hs
            refine ⟨?_, fun _ => ⟨_, rfl⟩, rfl, rfl, rfl, rfl⟩
            intro i hi
            simp [Plot.countLbl] at hi
        · simp [setAxnorm, checkNorm, hc, setLog, base0] at hs
  · intro hs
    unfold mkHist2d at hs
    cases n with
    | none =>
      cases b with
      | true =>
        simp only [setAxnorm, checkNorm, setLog, base0, Plot.countLbl, countNorm, setLabels, baseSetLabels, if_true, Except.ok.injEq,
          Except.map, Option.getD_some] at hs
        simp at hs
        subst hs
        refine ⟨?_, fun _ => ⟨_, rfl⟩, rfl, rfl, rfl, rfl, rfl⟩
        intro i hi
        simp [Plot.countLbl] at hi
        subst hi
        simp [Heap.put]
      | false =>
        simp [setAxnorm, checkNorm, setLog, base0, Plot.countLbl, setLabels, baseSetLabels] at hs
        subst hs
        refine ⟨?_, fun _ => ⟨_, rfl⟩, rfl, rfl, rfl, rfl, rfl⟩
        intro i hi
        simp [Plot.countLbl] at hi
    | some t =>
      by_cases hm : t.map Char.toLower ∈ norms
      · cases b with
        | true =>
          simp only [setAxnorm, checkNorm, if_pos hm, setLog, base0, Plot.countLbl, countNorm, setLabels, baseSetLabels, if_true,
            Except.ok.injEq, Except.map, Option.getD_some] at hs
          simp [hm] at hs
          subst hs
          refine ⟨?_, fun _ => ⟨_, rfl⟩, rfl, rfl, rfl, rfl, rfl⟩
          intro i hi
          simp [Plot.countLbl] at hi
          subst hi
          simp [Heap.put]
        | false =>
          simp [setAxnorm, checkNorm, if_pos hm, setLog, base0, Plot.countLbl, setLabels, baseSetLabels] at hs
          subst hs
          refine ⟨?_, fun _ => ⟨_, rfl⟩, rfl, rfl, rfl, rfl, rfl⟩
          intro i hi
          simp [Plot.countLbl] at hi
      · cases b with
        | true => simp [countNorm, if_neg hm, Except.map] at hs
        | false => simp [setAxnorm, checkNorm, if_neg hm, setLog, base0, setLabels, baseSetLabels] at hs

/-- C156 (violated): one label object given to two histograms: normalising the second renames the first. -/
theorem C156_shared (h : Heap) (p q : Plot) (i : Nat) (hq : q.countLbl = .count i) (new n : Option Txt)
    (hn : checkNorm q.kind new = .ok n) (hp : p.countLbl = .count i) (hne : p.axnorm ≠ some n) :
    InSync ((setAxnorm new h q).1.1, (setAxnorm new h q).1.2) ∧ ¬ InSync ((setAxnorm new h q).1.1, p) := by
  unfold setAxnorm
  rw [hn, hq]
  simp only
  constructor
  · intro j hj
    change q.countLbl = .count j at hj
    rw [hq] at hj
    simp only [Lbl.count.injEq] at hj
    subst hj
    simp [Heap.put]
  · intro hs
    have := hs i hp
    simp only [Heap.put, if_true] at this
    exact hne this.symm

/-- C156 (violated): `Hist1D` documents that only the first letter of `axnorm` counts, and with a y variable it does; without one the
label refuses every text but "d" and "D", so the construction raises. -/
theorem C156_word_refused (h : Heap) (id : Nat) (lx : Bool) (c : Char) (t : Txt) (hc : c.toLower = 'd') :
    (∃ s, mkHist1d h id lx (some (c :: t)) false = .ok s) ∧
    ((∃ s, mkHist1d h id lx (some (c :: t)) true = .ok s) ↔ t = []) ∧
    (t ≠ [] → mkHist1d h id lx (some (c :: t)) true = .error .assertionError) := by
  have hmem : (c :: t).map Char.toLower ∈ norms ↔ t = [] := by
    simp only [norms, List.map_cons, hc]
    cases t with
    | nil => simp
    | cons b t => simp
  have hbad : t ≠ [] → mkHist1d h id lx (some (c :: t)) true = .error .assertionError := by
    intro ht
    have hm : (c :: t).map Char.toLower ∉ norms := fun h => ht (hmem.mp h)
    unfold mkHist1d
    simp only [setAxnorm, checkNorm, hc, setLog, base0, Plot.countLbl, countNorm, if_neg hm, if_true]
  refine ⟨?_, ⟨fun ⟨s, hs⟩ => ?_, fun ht => ?_⟩, hbad⟩
  · unfold mkHist1d
    simp [setAxnorm, checkNorm, hc, setLog, base0, Plot.countLbl, setLabels, baseSetLabels]
  · by_contra ht
    rw [hbad ht] at hs
    simp at hs
  · have hm := hmem.mpr ht
    unfold mkHist1d
    simp only [setAxnorm, checkNorm, hc, setLog, base0, Plot.countLbl, countNorm, if_pos hm, setLabels, baseSetLabels, if_true]
    simp

/-- non-vacuity of C156: two histograms sharing one label, one of them normalised -/
example : ∃ (h : Heap) (p q : Plot), p.countLbl = .count 0 ∧ q.countLbl = .count 0 ∧ InSync (h, p) ∧
    checkNorm q.kind (some "C".toList) = .ok (some "c".toList) ∧ p.axnorm ≠ some (some "c".toList) := by
  obtain ⟨s, hs⟩ : ∃ s, mkHist2d (fun _ => none) 0 true false none true = .ok s := ⟨_, rfl⟩
  obtain ⟨h1, _, h3, _, _, h6, h7⟩ := (C156_constructed (fun _ => none) 0 true false none true s).2 hs
  refine ⟨s.1, s.2, s.2, ?_, ?_, h1, ?_, ?_⟩
  · simp [Plot.countLbl, h3, h7]
  · simp [Plot.countLbl, h3, h7]
  · rw [h3]; decide
  · rw [h6]; decide

/-! ### C157: distinct figures, distinct paths -/

theorem plain_x : Plain ['x'] := by unfold Plain; decide
theorem plain_y : Plain ['y'] := by unfold Plain; decide
theorem plain_z : Plain ['z'] := by unfold Plain; decide

theorem lit_x : "x".toList = ['x'] := by decide
theorem lit_y : "y".toList = ['y'] := by decide
theorem lit_z : "z".toList = ['z'] := by decide

/-- the automatic path of a plot with labels x and y, with a z part not ending with "norm" -/
theorem auto_xy (h : Heap) (p : Plot) (hk : p.kind ≠ .hist1d) (hx : p.x = .str ['x']) (hy : p.y = .str ['y']) (z : Txt)
    (hz : lblPath h ['z'] p.z = ⟨false, [z]⟩) (hn : endsNorm z = false) :
    newPath h p .auto true = ⟨false, [className p.kind, "x".toList, "y".toList, z, xys p.logx p.logy]⟩ := by
  rw [auto_z _ _ hk ['x'] ['y'] plain_x plain_y hx hy [z] hz, lit_x, lit_y]
  simp only [addScaleZ, List.cons_append, List.nil_append, List.getLast?_cons_cons, List.getLast?_singleton, hn]
  rfl

/-- … and with a count label naming a normalisation -/
theorem auto_xyn (h : Heap) (p : Plot) (hk : p.kind ≠ .hist1d) (hx : p.x = .str ['x']) (hy : p.y = .str ['y']) (i : Nat) (m : Txt)
    (hz : p.z = .count i) (hn : h i = some m) :
    newPath h p .auto true = ⟨false, [className p.kind, "x".toList, "y".toList, "count".toList,
      xys p.logx p.logy ++ "-".toList ++ m.map Char.toUpper ++ "norm".toList]⟩ := by
  rw [auto_z _ _ hk ['x'] ['y'] plain_x plain_y hx hy ["count".toList, m.map Char.toUpper ++ "norm".toList]
    (by rw [hz]; simp only [lblPath, hn, countPath]; rfl), lit_x, lit_y]
  have : endsNorm (m.map Char.toUpper ++ "norm".toList) = true := by
    rw [endsNorm_iff]; exact List.suffix_append _ _
  simp only [addScaleZ, List.cons_append, List.nil_append, List.getLast?_cons_cons, List.getLast?_singleton, this, if_true,
    List.dropLast]
  simp

theorem xys_length (a b : Bool) : (xys a b).length = 9 := by cases a <;> cases b <;> decide
theorem xys_inj {a b a' b' : Bool} (h : xys a b = xys a' b') : a = a' ∧ b = b' := by
  revert h; cases a <;> cases b <;> cases a' <;> cases b' <;> decide
theorem xs_inj {a b : Bool} (h : xs a = xs b) : a = b := by revert h; cases a <;> cases b <;> decide

/-- C157: for plots of one class with plain text labels the automatic path determines the labels and the scales shown (in one
dimension the y scale and the z label do not exist): two different figures are never saved at the same path. -/
theorem C157_injective (h h' : Heap) (p p' : Plot) (hk : p.kind = p'.kind) {a b c a' b' c' : Txt} (ha : Plain a) (hb : Plain b)
    (hc : Plain c) (ha' : Plain a') (hb' : Plain b') (hc' : Plain c') (hx : p.x = .str a) (hy : p.y = .str b) (hz : p.z = .str c)
    (hx' : p'.x = .str a') (hy' : p'.y = .str b') (hz' : p'.z = .str c')
    (heq : newPath h p .auto true = newPath h' p' .auto true) :
    a = a' ∧ b = b' ∧ p.logx = p'.logx ∧ (p.kind ≠ .hist1d → c = c' ∧ p.logy = p'.logy) := by
  by_cases h1 : p.kind = .hist1d
  · rw [auto_hist1d h p h1 a b ha hb hx hy, auto_hist1d h' p' (hk ▸ h1) a' b' ha' hb' hx' hy'] at heq
    simp only [PPath.mk.injEq, List.cons.injEq, and_true, true_and] at heq
    exact ⟨heq.1, heq.2.1, xs_inj heq.2.2, fun hn => absurd h1 hn⟩
  · rw [auto_z h p h1 a b ha hb hx hy [c] (by rw [hz]; exact lbl_plain _ _ c hc),
      auto_z h' p' (hk ▸ h1) a' b' ha' hb' hx' hy' [c'] (by rw [hz']; exact lbl_plain _ _ c' hc')] at heq
    simp only [addScaleZ, List.cons_append, List.nil_append, List.getLast?_cons_cons, List.getLast?_singleton] at heq
    by_cases he : endsNorm c = true <;> by_cases he' : endsNorm c' = true
    · rw [if_pos he, if_pos he'] at heq
      simp only [List.dropLast, PPath.mk.injEq, List.cons_append, List.nil_append, List.cons.injEq, and_true, true_and] at heq
      obtain ⟨_, e1, e2, e3⟩ := heq
      obtain ⟨f1, f2⟩ := List.append_inj e3 (by rw [xys_length, xys_length])
      obtain ⟨g1, g2⟩ := xys_inj f1
      simp only [List.cons.injEq, true_and] at f2
      exact ⟨e1, e2, g1, fun _ => ⟨f2, g2⟩⟩
    · rw [if_pos he, if_neg he'] at heq
      simp [List.dropLast] at heq
    · rw [if_neg he, if_pos he'] at heq
      simp [List.dropLast] at heq
    · rw [if_neg he, if_neg he'] at heq
      simp only [PPath.mk.injEq, List.cons_append, List.nil_append, List.cons.injEq, and_true, true_and] at heq
      obtain ⟨_, e1, e2, e3, e4⟩ := heq
      obtain ⟨g1, g2⟩ := xys_inj e4
      exact ⟨e1, e2, g1, fun _ => ⟨e3, g2⟩⟩

/-- C157 (violated beyond plain text): a blank and a dash give the same path, so do a missing label and the text "None"; and a label
beginning with "/" throws away the class and every label before it. -/
theorem C157_collisions (h : Heap) (s : Txt) :
    lblPath h "x".toList (.str (s ++ " ".toList)) = lblPath h "x".toList (.str (s ++ "-".toList)) ∧
    lblPath h "x".toList .none = lblPath h "x".toList (.str "None".toList) ∧
    (∀ p : Plot, p.kind = .hist1d → ∀ t, p.y = .str t → t.head? = some '/' →
      ∃ l, newPath h p .auto true = ⟨true, l ++ [xs p.logx]⟩ ∧
        ∀ q : Plot, q.kind = .hist1d → q.y = .str t → q.logx = p.logx → newPath h q .auto true = newPath h p .auto true) := by
  refine ⟨?_, rfl, ?_⟩
  · unfold lblPath
    simp only
    have e : ∀ c : Char, (c = ' ' ∨ c = '-') → (s ++ [c]) ≠ ['N', 'o', 'n', 'e'] := by
      intro c hc he
      have := congrArg List.getLast? he
      rw [List.getLast?_append_of_ne_nil _ (by simp)] at this
      rcases hc with rfl | rfl <;> revert this <;> decide
    rw [show (" ".toList : Txt) = [' '] by decide, show ("-".toList : Txt) = ['-'] by decide, if_neg (e ' ' (Or.inl rfl)),
      if_neg (e '-' (Or.inr rfl))]
    simp
  · intro p hk t hy ht
    have key : ∀ q : Plot, q.kind = .hist1d → q.y = .str t →
        newPath h q .auto true = ⟨true, (lblPath h ['y'] (.str t)).parts ++ [scaleX q.logx]⟩ := by
      intro q hq hqy
      have habs : (lblPath h ['y'] (.str t)).abs = true := by
        have h1 : t ≠ ['N', 'o', 'n', 'e'] := by rintro rfl; revert ht; decide
        unfold lblPath
        simp only
        rw [if_neg h1]
        unfold parsePath
        cases t with
        | nil => simp at ht
        | cons c t =>
          simp only [List.head?_cons, Option.some.injEq] at ht
          subst ht
          simp
      unfold newPath pathStem
      simp only [hq, if_true, hqy]
      rw [PPath.div, if_pos habs, habs]
    refine ⟨(lblPath h ['y'] (.str t)).parts, ?_, ?_⟩
    · rw [key p hk hy, xs_eq]
    · intro q hq hqy hl
      rw [key q hq hqy, key p hk hy, hl]

/-- C157: the paths right after construction: a 2-D histogram of counts -/
theorem C157_new_hist2d_count (h : Heap) (id : Nat) (lx ly : Bool) (n : Option Txt) (s : Heap × Plot)
    (hs : mkHist2d h id lx ly n true = .ok s) : s.2.path = ⟨false, ["Hist2D".toList, "x".toList, "y".toList, "count".toList,
      (n.map (fun m => xys lx ly ++ "-".toList ++ (m.map Char.toLower).map Char.toUpper ++ "norm".toList)).getD (xys lx ly)]⟩ := by
  unfold mkHist2d at hs
  cases n with
  | none =>
    simp only [setAxnorm, checkNorm, setLog, base0, Plot.countLbl, countNorm, setLabels, baseSetLabels, if_true, Except.ok.injEq,
      Except.map, Option.getD_some] at hs
    simp at hs
    subst hs
    simp only
    rw [auto_z _ _ (by simp) ['x'] ['y'] plain_x plain_y rfl rfl ["count".toList] (by simp [lblPath, Heap.put, countPath])]
    cases lx <;> cases ly <;> rfl
  | some t =>
    by_cases hm : t.map Char.toLower ∈ norms
    · simp only [setAxnorm, checkNorm, if_pos hm, setLog, base0, Plot.countLbl, countNorm, setLabels, baseSetLabels, if_true,
          Except.ok.injEq, Except.map, Option.getD_some] at hs
      simp [hm] at hs
      subst hs
      simp only
      rw [auto_xyn _ _ (by simp) rfl rfl id (t.map Char.toLower) rfl (by simp [Heap.put])]
      rw [Option.map_some, Option.getD_some, ← show className .hist2d = "Hist2D".toList from rfl]
    · simp [countNorm, if_neg hm, Except.map] at hs

/-- C157: a 2-D histogram of a variable -/
theorem C157_new_hist2d (h : Heap) (id : Nat) (lx ly : Bool) (n : Option Txt) (s : Heap × Plot)
    (hs : mkHist2d h id lx ly n false = .ok s) :
    s.2.path = ⟨false, ["Hist2D".toList, "x".toList, "y".toList, "z".toList, xys lx ly]⟩ := by
  have hz0 : ∀ h : Heap, lblPath h ['z'] (.str ['z']) = ⟨false, [['z']]⟩ := fun h => lbl_plain h _ _ plain_z
  unfold mkHist2d at hs
  have e : ∀ (h : Heap) (p : Plot), p.kind = .hist2d → p.x = .str ['x'] → p.y = .str ['y'] → p.z = .str ['z'] →
      newPath h p .auto true = ⟨false, ["Hist2D".toList, "x".toList, "y".toList, "z".toList, xys p.logx p.logy]⟩ := by
    intro h p h1 h2 h3 h4
    rw [auto_xy _ _ (by simp [h1]) h2 h3 ['z'] (by rw [h4]; exact hz0 h) (by decide), h1, lit_z]
    rfl
  cases n with
  | none =>
    simp [setAxnorm, checkNorm, setLog, base0, Plot.countLbl, setLabels, baseSetLabels] at hs
    subst hs
    simp only
    rw [e _ _ rfl rfl rfl rfl]
  | some t =>
    by_cases hm : t.map Char.toLower ∈ norms
    · simp [setAxnorm, checkNorm, if_pos hm, setLog, base0, Plot.countLbl, setLabels, baseSetLabels] at hs
      subst hs
      simp only
      rw [e _ _ rfl rfl rfl rfl]
    · simp [setAxnorm, checkNorm, if_neg hm, setLog, base0, setLabels, baseSetLabels] at hs

/-- C157: a 1-D histogram of a variable -/
theorem C157_new_hist1d (h : Heap) (id : Nat) (lx : Bool) (n : Option Txt) (s : Heap × Plot)
    (hs : mkHist1d h id lx n false = .ok s) : s.2.path = ⟨false, ["Hist1D".toList, "x".toList, "y".toList, xs lx]⟩ := by
  unfold mkHist1d at hs
  cases n with
  | none =>
    simp [setAxnorm, checkNorm, setLog, base0, Plot.countLbl, setLabels, baseSetLabels] at hs
    subst hs
    simp only
    rw [auto_hist1d _ _ rfl ['x'] ['y'] plain_x plain_y rfl rfl]
    rfl
  | some t =>
    cases t with
    | nil => simp [setAxnorm, checkNorm, setLog, base0] at hs
    | cons c t =>
      by_cases hc : c.toLower = 'd'
      · simp [setAxnorm, checkNorm, hc, setLog, base0, Plot.countLbl, setLabels, baseSetLabels] at hs
        subst hs
        simp only
        rw [auto_hist1d _ _ rfl ['x'] ['y'] plain_x plain_y rfl rfl]
        rfl
      · simp [setAxnorm, checkNorm, hc, setLog, base0] at hs

/-- C157: a 1-D histogram of counts -/
theorem C157_new_hist1d_count (h : Heap) (id : Nat) (lx : Bool) (n : Option Txt) (s : Heap × Plot)
    (hs : mkHist1d h id lx n true = .ok s) : s.2.path = ⟨false, ["Hist1D".toList, "x".toList, "count".toList] ++
      (if n = none then [] else ["Dnorm".toList]) ++ [xs lx]⟩ := by
  have e : ∀ (h : Heap) (p : Plot) (n : Option Txt) (l : List Txt), p.kind = .hist1d → p.x = .str ['x'] → p.y = .count id →
      countPath (h id) = ⟨false, l⟩ →
      newPath h p .auto true = ⟨false, ["Hist1D".toList, "x".toList] ++ l ++ [xs p.logx]⟩ := by
    intro h p n l h1 h2 h3 h4
    rw [← show className .hist1d = "Hist1D".toList from rfl]
    unfold newPath pathStem
    simp only [if_true, h1, h2, h3]
    rw [lbl_plain h _ _ plain_x, ← xs_eq]
    simp only [lblPath, h4]
    rw [name_eq, lit_x]
    generalize className .hist1d = N
    simp [PPath.div]
  unfold mkHist1d at hs
  cases n with
  | none =>
    simp only [setAxnorm, checkNorm, setLog, base0, Plot.countLbl, countNorm, setLabels, baseSetLabels, if_true, Except.ok.injEq] at hs
    simp at hs
    subst hs
    simp only
    rw [e _ _ none ["count".toList] rfl rfl rfl (by simp [Heap.put, countPath])]
    rfl
  | some t =>
    cases t with
    | nil => simp [setAxnorm, checkNorm, setLog, base0] at hs
    | cons c t =>
      by_cases hc : c.toLower = 'd'
      · by_cases hm : (c :: t).map Char.toLower ∈ norms
        · simp only [setAxnorm, checkNorm, hc, setLog, base0, Plot.countLbl, countNorm, if_pos hm, setLabels, baseSetLabels,
            if_true, Except.ok.injEq] at hs
          simp at hs
          subst hs
          simp only
          rw [e _ _ none ["count".toList, "Dnorm".toList] rfl rfl rfl (by simp [Heap.put, countPath])]
          simp
        · simp only [setAxnorm, checkNorm, hc, setLog, base0, Plot.countLbl, countNorm, if_neg hm, if_true] at hs
          simp at hs
      · simp [setAxnorm, checkNorm, hc, setLog, base0] at hs

/-- C157 (violated): a new scatter plot's path names neither class nor labels: all new scatter plots share it. -/
theorem C157_new_scatter (h : Heap) (b : Bool) : (mkScatter h b).path = ⟨false, ["linX-linY".toList]⟩ := by
  cases b <;> rfl

/-- C157: a spiral plot -/
theorem C157_new_spiral (h : Heap) (id : Nat) (lx ly b : Bool) :
    (mkSpiral h id lx ly b).1.2.path = ⟨false, ["SpiralPlot2D".toList, "x".toList, "y".toList,
      (if b then "count" else "z").toList, xys lx ly]⟩ := by
  have hz0 : ∀ h : Heap, lblPath h ['z'] (.str ['z']) = ⟨false, [['z']]⟩ := fun h => lbl_plain h _ _ plain_z
  cases b with
  | true =>
    simp only [mkSpiral, setLog, base0, setLabels, baseSetLabels, if_true, Bool.false_eq_true, if_false, Option.getD_some]
    rw [auto_z _ _ (by simp) ['x'] ['y'] plain_x plain_y rfl rfl ["count".toList] (by simp [lblPath, Heap.put, countPath])]
    cases lx <;> cases ly <;> rfl
  | false =>
    simp only [mkSpiral, setLog, base0, setLabels, baseSetLabels, Bool.false_eq_true, if_false, Option.getD_some, if_true]
    rw [auto_z _ _ (by simp) ['x'] ['y'] plain_x plain_y rfl rfl [['z']] (hz0 _)]
    cases lx <;> cases ly <;> rfl

end Plt
end SW
