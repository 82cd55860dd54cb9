import Verif.Props.PlotState

/-!
# Scales, explicit paths, refused normalisations (C154, C155, C156)
-/

namespace SW.Plt

/-- the values given for one axis by the `set_log` calls of a history, oldest first -/
def logsGiven (f : Option Bool × Option Bool → Option Bool) (ops : List Op) : List Bool :=
  ops.filterMap (fun o => match o with
    | .log x y => f (x, y)
    | _ => none)

theorem step_log (o : Op) (s : Heap × Plot) (hr : s.2.Ready) (ho : ∀ x y, o ≠ .log x y) :
    (step o s).1.2.logx = s.2.logx ∧ (step o s).1.2.logy = s.2.logy := by
  obtain ⟨h, p⟩ := s
  cases o with
  | labels kw =>
    show (setLabels kw h p).1.2.logx = _ ∧ (setLabels kw h p).1.2.logy = _
    rcases setLabels_eq kw h p hr with ⟨_, _, he⟩ | ⟨_, h', kw', _, _, _, _, _, he, _⟩
    · rw [he]; exact ⟨rfl, rfl⟩
    · rw [he]
      cases hex : kw'.extra with
      | true => rw [baseSetLabels_err kw' h' p hex]; exact ⟨rfl, rfl⟩
      | false =>
        obtain ⟨-, -, -, -, -, h6, h7, -⟩ := baseSetLabels_ok kw' h' p hex
        exact ⟨h6, h7⟩
  | log x y => exact absurd rfl (ho x y)
  | path n b => exact ⟨rfl, rfl⟩
  | axnorm n =>
    show (setAxnorm n h p).1.2.logx = _ ∧ (setAxnorm n h p).1.2.logy = _
    unfold setAxnorm
    split
    · exact ⟨rfl, rfl⟩
    · split <;> exact ⟨rfl, rfl⟩

theorem getLast?_getD_consB (a : Bool) (l : List Bool) (d : Bool) : (a :: l).getLast?.getD d = l.getLast?.getD a := by
  cases l with
  | nil => rfl
  | cons b l => rw [List.getLast?_cons_cons]; rw [List.getLast?_eq_getLast_of_ne_nil (by simp)]; rfl

/-- C154: after any history of calls, refused ones included, each axis is logarithmic as the last `set_log` that named it said, or as at
construction. -/
theorem C154_log_history (ops : List Op) : ∀ (s : Heap × Plot), s.2.Ready →
    (run ops s).2.logx = (logsGiven Prod.fst ops).getLast?.getD s.2.logx ∧
    (run ops s).2.logy = (logsGiven Prod.snd ops).getLast?.getD s.2.logy := by
  induction ops with
  | nil => intro s _; exact ⟨rfl, rfl⟩
  | cons o os ih =>
    intro s hr
    have h1 := ih (step o s).1 (step_frame o s hr).2.1
    show (run os (step o s).1).2.logx = _ ∧ (run os (step o s).1).2.logy = _
    rw [h1.1, h1.2]
    by_cases ho : ∃ x y, o = .log x y
    · obtain ⟨x, y, rfl⟩ := ho
      have e1 : (step (.log x y) s).1.2.logx = x.getD s.2.logx := rfl
      have e2 : (step (.log x y) s).1.2.logy = y.getD s.2.logy := rfl
      rw [e1, e2]
      constructor
      · cases x with
        | none => rfl
        | some b => show _ = (b :: logsGiven Prod.fst os).getLast?.getD _; rw [getLast?_getD_consB]; rfl
      · cases y with
        | none => rfl
        | some b => show _ = (b :: logsGiven Prod.snd os).getLast?.getD _; rw [getLast?_getD_consB]; rfl
    · have ho' : ∀ x y, o ≠ .log x y := fun x y h => ho ⟨x, y, h⟩
      obtain ⟨e1, e2⟩ := step_log o s hr ho'
      rw [e1, e2]
      have : ∀ f, logsGiven f (o :: os) = logsGiven f os := by
        intro f
        unfold logsGiven
        rw [List.filterMap_cons]
        cases o with
        | log x y => exact absurd rfl (ho' x y)
        | _ => rfl
      rw [this, this]; exact ⟨rfl, rfl⟩

example : ∃ s, mkHist2d (fun _ => none) 0 true false none true = .ok s ∧
    (run [.log none (some true), .axnorm (some ['q']), .log (some false) none] s).2.logx = false ∧
    (run [.log none (some true), .axnorm (some ['q']), .log (some false) none] s).2.logy = true := by
  exact ⟨_, rfl, by decide +kernel, by decide +kernel⟩

theorem split_cons_ne (c : Char) (cs : Txt) (h : c ≠ '/') (a : Txt) (l : List Txt) (hs : Chars.split '/' cs = a :: l) :
    Chars.split '/' (c :: cs) = (c :: a) :: l := by
  simp [Chars.split, h, hs]

/-- C155 (a path given explicitly): without the scales the plot is saved exactly there, empty and "." components dropped; nothing else of
the plot changes. -/
theorem C155_explicit (s : Heap × Plot) (dir : List Txt) (hne : dir ≠ []) (hd : ∀ c ∈ dir, '/' ∉ c) (add : Bool) :
    (step (.path (.to (Chars.join '/' dir)) false) s).1.2.path =
      ⟨decide ((Chars.join '/' dir).head? = some '/'), dir.filter (fun c => decide (c ≠ [] ∧ c ≠ ".".toList))⟩ ∧
    (step (.path (.to (Chars.join '/' dir)) add) s).2 = none ∧
    (step (.path (.to (Chars.join '/' dir)) add) s).1 = (s.1, { s.2 with path := (step (.path (.to (Chars.join '/' dir)) add) s).1.2.path }) := by
  refine ⟨?_, rfl, rfl⟩
  show newPath s.1 s.2 (.to (Chars.join '/' dir)) false = _
  have hsp : Chars.split '/' (Chars.join '/' dir) = dir := Chars.split_join '/' dir hne hd
  unfold newPath pathStem parsePath
  simp only [hsp]
  rfl

/-- C155 (explicit path with scales): the scales shown come last; in two dimensions they are put in front of a last component ending with
"norm" instead. -/
theorem C155_explicit_scales (s : Heap × Plot) (dir : List Txt) (hne : dir ≠ []) (hd : ∀ c ∈ dir, '/' ∉ c)
    (hp : ∀ c ∈ dir, c ≠ [] ∧ c ≠ ".".toList) :
    (s.2.kind = .hist1d → (step (.path (.to (Chars.join '/' dir)) true) s).1.2.path.parts = dir ++ [xs s.2.logx]) ∧
    (s.2.kind ≠ .hist1d → (∀ c, dir.getLast? = some c → ¬ EndsNorm c) →
      (step (.path (.to (Chars.join '/' dir)) true) s).1.2.path.parts = dir ++ [xys s.2.logx s.2.logy]) ∧
    (s.2.kind ≠ .hist1d → ∀ l c, dir = l ++ [c] → EndsNorm c →
      (step (.path (.to (Chars.join '/' dir)) true) s).1.2.path.parts = l ++ [xys s.2.logx s.2.logy ++ "-".toList ++ c]) := by
  have hsp : Chars.split '/' (Chars.join '/' dir) = dir := Chars.split_join '/' dir hne hd
  have hf : dir.filter (fun c => decide (c ≠ [] ∧ c ≠ ['.'])) = dir := by
    rw [List.filter_eq_self]; intro c hc; have := hp c hc
    simpa using this
  have hstem : pathStem s.1 s.2 (.to (Chars.join '/' dir)) = ⟨decide ((Chars.join '/' dir).head? = some '/'), dir⟩ := by
    unfold pathStem parsePath; simp only [hsp, hf]
  have hgo : (step (.path (.to (Chars.join '/' dir)) true) s).1.2.path = newPath s.1 s.2 (.to (Chars.join '/' dir)) true := rfl
  rw [hgo]
  unfold newPath
  rw [hstem]
  simp only [if_true]
  refine ⟨fun hk => ?_, fun hk hn => ?_, fun hk l c hl hn => ?_⟩
  · rw [if_pos hk, xs_eq]
  · rw [if_neg hk, xys_eq]
    unfold addScaleZ
    simp only []
    rcases hl : dir.getLast? with _ | c
    · rw [List.getLast?_eq_none_iff] at hl; exact absurd hl hne
    · have : endsNorm c = false := by
        rw [Bool.eq_false_iff]; intro hh; exact hn c hl ((endsNorm_iff c).mp hh)
      simp only [this]; rfl
  · rw [if_neg hk, xys_eq]
    unfold addScaleZ
    simp only [hl, List.getLast?_append, List.getLast?_singleton, Option.some_or, (endsNorm_iff c).mpr hn, if_true,
      List.dropLast_concat]
    simp

example : (["figs".toList, "CNorm-norm".toList] : List Txt).getLast? = some "CNorm-norm".toList ∧ EndsNorm "CNorm-norm".toList := by
  refine ⟨rfl, ?_⟩
  unfold EndsNorm; exact ⟨"CNorm-".toList, by decide +kernel⟩

/-- C156 (what is accepted): a 1-D histogram takes no normalisation or a text starting with d or D, refusing the empty text with
IndexError and others with AssertionError; a 2-D histogram takes none or c, r, t, d, cd, rd in either case and refuses others with
AssertionError; scatter and spiral plots have no normalisation (AttributeError). -/
theorem C156_accepts (h : Heap) (p : Plot) (new : Option Txt) :
    (p.kind = .hist1d →
      (new = some [] → (setAxnorm new h p).2 = some .indexError) ∧
      ((new = none ∨ ∃ c t, new = some (c :: t) ∧ (c = 'd' ∨ c = 'D')) → (setAxnorm new h p).2 = none) ∧
      ((∃ c t, new = some (c :: t) ∧ c ≠ 'd' ∧ c ≠ 'D') → (setAxnorm new h p).2 = some .assertionError)) ∧
    (p.kind = .hist2d →
      ((new = none ∨ ∃ t, new = some t ∧ t.map Char.toLower ∈ ["c".toList, "r".toList, "t".toList, "d".toList, "rd".toList, "cd".toList]) →
        (setAxnorm new h p).2 = none) ∧
      (∀ t, new = some t → t.map Char.toLower ∉ ["c".toList, "r".toList, "t".toList, "d".toList, "rd".toList, "cd".toList] →
        (setAxnorm new h p).2 = some .assertionError)) ∧
    (p.kind = .scatter ∨ p.kind = .spiral → (setAxnorm new h p).2 = some .attributeError) := by
  have hgen : (setAxnorm new h p).2 = (match checkNorm p.kind new with | .error e => some e | .ok _ => none) := by
    unfold setAxnorm
    rcases checkNorm p.kind new with e | n
    · rfl
    · simp only []; split <;> rfl
  have hd : ∀ c : Char, c.toLower = 'd' ↔ (c = 'd' ∨ c = 'D') := by
    intro c
    constructor
    · intro hc
      have hv : c.toLower.val = 'd'.val := by rw [hc]
      unfold Char.toLower at hv
      split at hv
      · rename_i hh
        right
        apply Char.ext
        have h1 : c.val + 32 = 100 := hv
        show c.val = 68
        have := congrArg (· - 32) h1
        simpa using this
      · left; exact Char.ext hv
    · rintro (rfl | rfl) <;> decide
  have hnorms : norms = ["c".toList, "r".toList, "t".toList, "d".toList, "rd".toList, "cd".toList] := by decide +kernel
  rw [hgen, ← hnorms]
  refine ⟨fun hk => ⟨?_, ?_, ?_⟩, fun hk => ⟨?_, ?_⟩, ?_⟩
  · rintro rfl; rw [hk]; rfl
  · rintro (rfl | ⟨c, t, rfl, hc⟩)
    · rw [hk]; rfl
    · rw [hk]; unfold checkNorm; simp only []; rw [if_pos ((hd c).mpr hc)]
  · rintro ⟨c, t, rfl, h1, h2⟩
    rw [hk]; unfold checkNorm; simp only []
    rw [if_neg (fun hh => ((hd c).mp hh).elim h1 h2)]
  · rintro (rfl | ⟨t, rfl, ht⟩)
    · rw [hk]; rfl
    · rw [hk]; unfold checkNorm; simp only []; rw [if_pos ht]
  · rintro t rfl ht
    rw [hk]; unfold checkNorm; simp only []; rw [if_neg ht]
  · rintro (hk | hk) <;> rw [hk] <;> rcases new with _ | t <;> rfl

end SW.Plt
