import Verif.IonPhys
import Verif.Props.PlasmaThermo

/-!
# Property C196: an ion's own properties against the plasma's queries for that species
-/

namespace SW
open Classical

variable (K : Const) (o : Obs)

theorem sumSkip_one (x : Fl) : Fl.sumSkip [x] = if x.isNaN then .fin 0 else x := by
  rw [Fl.sumSkip_cons, Fl.sumSkip_nil]
  split
  · rfl
  · exact Fl.add_zero' x

theorem ionW_ok {comps : List String} (h : ∀ c ∈ ["par", "per", "scalar"], c ∈ comps) : ionW comps = .ok () := by
  unfold ionW
  rw [if_pos]
  have h1 := h "par" (by simp)
  have h2 := h "per" (by simp)
  have h3 := h "scalar" (by simp)
  simp [h1, h2, h3]

/-- C196: for a species whose density and thermal speed are measured (finite), the ion's mass density, pressure, temperature, sound
speed, anisotropy and specific entropy are those the plasma reports for that species. -/
theorem C196_agree (ions : List String) (s : String) (h : Valid ions [s]) (d : RData) (hm : Measured o [s] d)
    (comps : List String) (hc : ∀ c, c ∈ comps ↔ c ∈ ["par", "per", "scalar"]) :
    massDensity K o ions [s] = .ok (.total (rhoS K o s)) ∧
    (∃ p, ionPth K o comps s = .ok p ∧ p.map Prod.fst = comps ∧ ∀ c v, (c, v) ∈ p → pth K o ions c [s] = .ok (.total v)) ∧
    (∃ p, ionTemp K o comps s = .ok p ∧ p.map Prod.fst = comps ∧ ∀ c v, (c, v) ∈ p → temperature K o ions c [s] = .ok (.total v)) ∧
    (∃ p v, ionCs K o comps s = .ok p ∧ p.map Prod.fst = comps ∧ ("scalar", v) ∈ p ∧ soundSpeed K o ions [s] = .ok (.total v)) ∧
    (0 < d.n s → d.w s "par" ≠ 0 → ∃ a, ionAnisotropy K o comps s = .ok a ∧ anisotropy K o ions [s] = .ok (.total a)) ∧
    ∃ e, ionEntropy K o comps s = .ok e ∧ specificEntropy K o ions [s] = .ok (.total e) := by
  have hs : s ∈ [s] := by simp
  have hw : ionW comps = .ok () := ionW_ok (fun c h => (hc c).mpr h)
  have r1 : rhoTot K o [s] = rhoS K o s := by
    unfold rhoTot; rw [List.map_cons, List.map_nil, sumSkip_one, if_neg]; unfold rhoS; rw [hm.n s hs]; simp
  have p1 : ∀ c ∈ ["par", "per", "scalar"], pthTot K o c [s] = pthS K o c s := by
    intro c hc
    unfold pthTot; rw [List.map_cons, List.map_nil, sumSkip_one, if_neg]
    unfold pthS rhoS; rw [hm.n s hs, hm.w s hs c hc]; simp
  have t1 : ∀ c ∈ ["par", "per", "scalar"], tempTot K o c [s] = tempS K o c s := by
    intro c hc
    unfold tempTot; rw [List.map_cons, List.map_nil, sumSkip_one, if_neg]
    unfold tempS; rw [hm.w s hs c hc]; simp
  have fst : ∀ f : String → Fl, (comps.map (fun c => (c, f c))).map Prod.fst = comps := by
    intro f; rw [List.map_map]; exact List.map_id' _
  refine ⟨?_, ?_, ?_, ?_, ?_, ?_⟩
  · unfold massDensity; rw [query_single h hs, r1]
  · refine ⟨_, by unfold ionPth; rw [hw]; rfl, fst _, ?_⟩
    intro c v hv
    obtain ⟨c', hc', he⟩ := List.mem_map.mp hv
    obtain ⟨rfl, rfl⟩ := Prod.mk.inj he
    unfold pth; rw [query_single h hs, p1 _ ((hc _).mp hc')]
  · refine ⟨_, by unfold ionTemp; rw [hw]; rfl, fst _, ?_⟩
    intro c v hv
    obtain ⟨c', hc', he⟩ := List.mem_map.mp hv
    obtain ⟨rfl, rfl⟩ := Prod.mk.inj he
    unfold temperature; rw [query_single h hs, t1 _ ((hc _).mp hc')]
  · refine ⟨_, csS K o "scalar" s, by unfold ionCs; rw [hw]; rfl, fst _, List.mem_map.mpr ⟨"scalar", (hc _).mpr (by simp), rfl⟩, ?_⟩
    unfold soundSpeed; rw [query_single h hs, r1, p1 _ (by simp)]; rfl
  · intro hn hwp
    refine ⟨_, by unfold ionAnisotropy; rw [hw]; rfl, ?_⟩
    unfold anisotropy
    rw [query_single h hs, p1 _ (by simp), p1 _ (by simp)]
    have e : ∀ c ∈ ["par", "per", "scalar"], pthS K o c s = .fin (0.5 / K.uPth * ((d.w s c * K.uV) ^ 2 * (d.n s * K.mInMp s * K.uRho))) := by
      intro c hc; unfold pthS rhoS; rw [hm.n s hs, hm.w s hs c hc]; simp
    have hpos : (0.5 / K.uPth * ((d.w s "par" * K.uV) ^ 2 * (d.n s * K.mInMp s * K.uRho))) ≠ 0 := by
      have := K.uPth_pos; have := K.mInMp_pos s; have := K.uRho_pos; have := K.uV_pos; positivity
    rw [e "par" (by simp), e "per" (by simp)]
    unfold aniOf prod2
    rw [Fl.fin_div _ _ hpos]
    simp [Fl.one_def]
  · refine ⟨_, by unfold ionEntropy; rw [hw]; rfl, ?_⟩
    unfold specificEntropy
    rw [query_single h hs, r1, p1 _ (by simp)]; rfl

/-- C196 (violated for missing data): where the density is missing, the ion's mass density and pressure are missing too, while the
plasma reports zero for the same species. -/
theorem C196_missing (ions : List String) (s : String) (h : Valid ions [s]) (hn : o.n s = .nan) :
    rhoS K o s = .nan ∧ massDensity K o ions [s] = .ok (.total (.fin 0)) ∧
    ∀ c, pthS K o c s = .nan ∧ pth K o ions c [s] = .ok (.total (.fin 0)) := by
  have r : rhoS K o s = .nan := by unfold rhoS; rw [hn]; simp
  have p : ∀ c, pthS K o c s = .nan := by intro c; unfold pthS; rw [r]; simp
  refine ⟨r, ?_, fun c => ⟨p c, ?_⟩⟩
  · unfold massDensity; rw [query_single h (by simp)]; unfold rhoTot
    rw [List.map_cons, List.map_nil, sumSkip_one, r]; simp
  · unfold pth; rw [query_single h (by simp)]; unfold pthTot
    rw [List.map_cons, List.map_nil, sumSkip_one, p]; simp

/-- C196 (violated for missing data): with a missing parallel thermal speed the ion's anisotropy is missing; the plasma's is infinite. -/
theorem C196_anisotropy_missing (ions : List String) (s : String) (h : Valid ions [s]) (n w : ℝ) (hn : 0 < n)
    (hw : w ≠ 0) (h1 : o.n s = .fin n) (h2 : o.w s "par" = .nan) (h3 : o.w s "per" = .fin w) (comps : List String)
    (hc : ∀ c ∈ ["par", "per", "scalar"], c ∈ comps) :
    ionAnisotropy K o comps s = .ok .nan ∧ anisotropy K o ions [s] = .ok (.total .pinf) := by
  refine ⟨?_, C94_anisotropy_infinite K o ions s h n w hn hw h1 h2 h3⟩
  unfold ionAnisotropy
  rw [ionW_ok hc]
  have : pthS K o "par" s = .nan := by unfold pthS; rw [h2]; simp
  simp only [Except.map, this]
  unfold prod2
  simp

theorem ionCs_mem {comps : List String} {p : List (String × Fl)} {c s : String} {v : Fl} (hp : ionCs K o comps s = .ok p)
    (hv : (c, v) ∈ p) : v = csS K o c s := by
  unfold ionCs at hp
  cases h : ionW comps with
  | error e => rw [h] at hp; cases hp
  | ok u =>
    rw [h] at hp
    rw [← Except.ok.inj hp] at hv
    obtain ⟨c', _, he⟩ := List.mem_map.mp hv
    obtain ⟨rfl, rfl⟩ := Prod.mk.inj he
    rfl

/-- C196: the sound speed an ion reports for a component is its thermal speed times `sqrt(gamma / 2)`: it depends neither on density nor mass. -/
theorem C196_sound (comps : List String) (p : List (String × Fl)) (c s : String) (v : Fl) (n w : ℝ) (hp : ionCs K o comps s = .ok p)
    (hv : (c, v) ∈ p) (hn : 0 < n) (hw : 0 ≤ w) (h1 : o.n s = .fin n) (h2 : o.w s c = .fin w) :
    v = .fin (Real.sqrt (K.gamma / 2) * w) := by
  rw [ionCs_mem K o hp hv]
  have := K.uPth_pos; have := K.mInMp_pos s; have := K.uRho_pos; have hv := K.uV_pos; have hg := K.gamma_pos
  unfold csS pthS rhoS
  rw [h1, h2]
  simp only [Fl.fin_mul, Fl.sq_fin]
  have hne : n * K.mInMp s * K.uRho ≠ 0 := by positivity
  rw [Fl.fin_div _ _ hne, Fl.fin_mul, Fl.sqrt_fin _ (by positivity), Fl.fin_div _ _ hv.ne']
  congr 1
  have e : 0.5 / K.uPth * ((w * K.uV) ^ 2 * (n * K.mInMp s * K.uRho)) * K.uPth / (n * K.mInMp s * K.uRho) * K.gamma =
      K.gamma / 2 * (w * K.uV) ^ 2 := by
    field_simp
    norm_num
    ring
  rw [e, Real.sqrt_mul (by positivity), Real.sqrt_sq (by positivity)]
  field_simp

/-- C196: an ion without particles has no sound speed, whatever its thermal speed. -/
theorem C196_sound_empty (comps : List String) (p : List (String × Fl)) (c s : String) (v : Fl) (w : ℝ) (hp : ionCs K o comps s = .ok p)
    (hv : (c, v) ∈ p) (h1 : o.n s = .fin 0) (h2 : o.w s c = .fin w) : v = .nan := by
  rw [ionCs_mem K o hp hv]
  unfold csS pthS rhoS
  rw [h1, h2]
  simp only [Fl.fin_mul, Fl.sq_fin, zero_mul, mul_zero]
  have : (Fl.fin 0 / Fl.fin 0 : Fl) = .nan := by show Fl.div _ _ = _; simp [Fl.div]
  rw [this]
  simp [Fl.sqrt]

/-- C196 (violated): an ion built from the required columns only (no scalar thermal speed) is accepted, but its pressure, temperature, sound speed,
anisotropy and specific entropy raise `ValueError`, whatever the data; with all three components none of them does. -/
theorem C196_no_scalar {ι : Type} (f : ι → Fl) (s : String) (comps : List String) :
    ionCheck ((ionRequired s).map fun c => (c, f)) s = .ok () ∧
    ("scalar" ∉ comps → ionPth K o comps s = .error .valueError ∧ ionTemp K o comps s = .error .valueError ∧
      ionCs K o comps s = .error .valueError ∧ ionAnisotropy K o comps s = .error .valueError ∧ ionEntropy K o comps s = .error .valueError) ∧
    ((∀ c ∈ ["par", "per", "scalar"], c ∈ comps) → (∃ p, ionPth K o comps s = .ok p) ∧ (∃ p, ionTemp K o comps s = .ok p) ∧
      (∃ p, ionCs K o comps s = .ok p) ∧ (∃ p, ionAnisotropy K o comps s = .ok p) ∧ ∃ p, ionEntropy K o comps s = .ok p) := by
  refine ⟨?_, ?_, ?_⟩
  · have : ∀ c ∈ ionRequired s, c ∈ Frame.cols ((ionRequired s).map fun c => (c, f)) := by
      intro c hc; simp [Frame.cols]; exact hc
    unfold ionCheck
    rw [if_neg, if_pos]
    · rw [List.all_eq_true]; intro c hc; simpa using this c hc
    · simp [ionRequired, Frame.cols]
  · intro h
    have hw : ionW comps = .error .valueError := by
      unfold ionW
      rw [if_neg]
      simp [h]
    simp [ionPth, ionTemp, ionCs, ionAnisotropy, ionEntropy, hw, Except.map]
  · intro h
    simp [ionPth, ionTemp, ionCs, ionAnisotropy, ionEntropy, ionW_ok h, Except.map]

/-- C196: ions are equal exactly if they have the same species and the same data; comparing with anything else is left to the other
object. -/
theorem C196_eq {δ : Type} (same : δ → δ → Bool) (a : String × δ) :
    (∀ b, ionEq same a (some b) = some true ↔ a.1 = b.1 ∧ same a.2 b.2 = true) ∧ ionEq same a none = none := by
  refine ⟨fun b => ?_, rfl⟩
  simp [ionEq]

/-! ### Concrete cases -/

example (K : Const) : massDensity K exD.obs ["a", "p1"] ["a"] = .ok (.total (rhoS K exD.obs "a")) :=
  (C196_agree K exD.obs _ "a" (exValid.single (by simp)) exD (exD.measured _) ["par", "per", "scalar"] (by simp)).1

example (K : Const) : ∃ p, ionCs K exD.obs ["par", "per", "scalar"] "p1" = .ok p ∧
    ("per", .fin (Real.sqrt (K.gamma / 2) * 4)) ∈ p := by
  refine ⟨_, rfl, List.mem_map.mpr ⟨"per", by simp, ?_⟩⟩
  rw [C196_sound K exD.obs ["par", "per", "scalar"] _ "per" "p1" (csS K exD.obs "per" "p1") 4 4 rfl
    (List.mem_map.mpr ⟨"per", by simp, rfl⟩) (by norm_num) (by norm_num) (by simp [exD, RData.obs]) (by simp [exD, RData.obs])]

example (K : Const) : massDensity K { exD.obs with n := fun _ => .nan } ["a", "p1"] ["a"] = .ok (.total (.fin 0)) :=
  (C196_missing K _ _ "a" (exValid.single (by simp)) rfl).2.1

end SW
