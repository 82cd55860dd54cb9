import Verif.Props.PlasmaFlow
import Verif.Props.PlasmaKinetic
import Verif.Props.PlasmaThermo

/-!
# Properties C216, C217 (change of the reference frame)

The specification is the physical transformation of the *data*: `Obs.boost` adds one velocity to every species' velocity,
`Obs.rotate` turns every velocity and the magnetic field by one rotation matrix. The theorems compare what the methods of
`Plasma` (model: Verif/PlasmaPhys.lean) report for the transformed and for the original row.
-/

namespace SW
open Classical

/-! ### Specification -/

/-- `f` applied to the value(s) of a result -/
def Res.map {α β : Type} (f : α → β) : Res α → Res β
  | .total a => .total (f a)
  | .each l => .each (l.map fun p => (p.1, f p.2))

/-- the same row seen from a frame moving with velocity `-(ux, uy, uz)` -/
noncomputable def V3.shift (ux uy uz : ℝ) (v : V3) : V3 := ⟨v.x + .fin ux, v.y + .fin uy, v.z + .fin uz⟩
noncomputable def Obs.boost (ux uy uz : ℝ) (o : Obs) : Obs := { o with v := fun s => V3.shift ux uy uz (o.v s) }

/-- a change of the axes: nine direction cosines with orthonormal columns (reflections included) -/
structure Rot where
  a : ℝ
  b : ℝ
  c : ℝ
  d : ℝ
  e : ℝ
  f : ℝ
  g : ℝ
  h : ℝ
  i : ℝ
  xx : a ^ 2 + d ^ 2 + g ^ 2 = 1
  yy : b ^ 2 + e ^ 2 + h ^ 2 = 1
  zz : c ^ 2 + f ^ 2 + i ^ 2 = 1
  xy : a * b + d * e + g * h = 0
  xz : a * c + d * f + g * i = 0
  yz : b * c + e * f + h * i = 0

/-- components along the new axes -/
noncomputable def V3.turn (R : Rot) (v : V3) : V3 :=
  ⟨v.x * .fin R.a + v.y * .fin R.b + v.z * .fin R.c, v.x * .fin R.d + v.y * .fin R.e + v.z * .fin R.f,
   v.x * .fin R.g + v.y * .fin R.h + v.z * .fin R.i⟩
noncomputable def Obs.rotate (R : Rot) (o : Obs) : Obs := { o with v := fun s => V3.turn R (o.v s), b := V3.turn R o.b }

/-! ### Helper lemmas -/

theorem Fl.shift_sub (x y : Fl) (u : ℝ) : (x + .fin u) - (y + .fin u) = x - y := by
  cases x <;> cases y <;> first | rfl | skip
  rename_i a b
  simp only [Fl.fin_add, Fl.fin_sub]; congr 1; ring

theorem V3.shift_sub (ux uy uz : ℝ) (v w : V3) : V3.sub (V3.shift ux uy uz v) (V3.shift ux uy uz w) = V3.sub v w := by
  unfold V3.sub V3.shift; simp only [Fl.shift_sub]

theorem pySorted_single (s : String) : pySorted [s] = [s] := rfl

/-- a plain name: an error that does not depend on the data, or that species' velocity -/
theorem velocity_plain (K : Const) (ions : List String) (s : String) (hs : '+' ∉ s.toList) (proj : Bool) :
    ∃ r : Except PyErr Unit, ∀ o : Obs, velocity K o ions [s] proj =
      r.map fun _ => .total (if proj then V3.scale (m2q K s) (o.v s) else o.v s) := by
  have hc : chkSpecies ions [.str s] = (conform [.str s]).bind (fun sp =>
      if ∃ t ∈ sp, t ∉ ions ∧ t ≠ "" then .error .valueError else .ok sp) := chkSpecies_eq _ _
  have h2 : conform [.str s] = .error .valueError ∨ conform [.str s] = .ok [s] := by
    have := conformS_eq [s]
    have e : conformS [s] = conform [.str s] := rfl
    rw [e] at this
    rw [this]
    split
    · exact Or.inl rfl
    · rw [if_neg (by simp)]
      right; simp only [pySplit_self '+' s (by simpa [hasChar] using hs), pySorted_single]
  rcases h2 with h2 | h2
  · rw [h2] at hc
    refine ⟨.error .valueError, fun o => ?_⟩
    unfold velocity
    rw [show ([s].map PyVal.str) = [.str s] from rfl, hc]; rfl
  · rw [h2] at hc
    simp only [Except.bind] at hc
    by_cases he : ∃ t ∈ [s], t ∉ ions ∧ t ≠ ""
    · rw [if_pos he] at hc
      refine ⟨.error .valueError, fun o => ?_⟩
      unfold velocity
      rw [show ([s].map PyVal.str) = [.str s] from rfl, hc]; rfl
    · rw [if_neg he] at hc
      by_cases hi : ions.contains s = true
      · refine ⟨.ok (), fun o => ?_⟩
        unfold velocity
        rw [show ([s].map PyVal.str) = [.str s] from rfl, hc]
        simp only [hi]; rfl
      · refine ⟨.error .keyError, fun o => ?_⟩
        unfold velocity
        rw [show ([s].map PyVal.str) = [.str s] from rfl, hc]
        simp only [hi]; rfl

theorem twoSpecies_plain {ions : List String} {s0 s1 a b : String} (h : twoSpecies ions s0 s1 = .ok (a, b)) :
    '+' ∉ a.toList ∧ '+' ∉ b.toList ∧ a ∈ ions ∧ b ∈ ions := by
  have plain : ∀ {s : String} {l : List String}, chkSpecies ions [.str s] = .ok l → ∀ t ∈ l, '+' ∉ t.toList := by
    intro s l hl t ht
    rw [chkSpecies_eq] at hl
    rcases hc : conform [.str s] with e | sp
    · rw [hc] at hl; cases hl
    · rw [hc] at hl
      simp only [Except.bind] at hl
      split at hl
      · cases hl
      · injection hl with hl; subst hl
        have := conform_ok_no_plus hc t ht
        simpa [hasChar] using this
  unfold twoSpecies at h
  rcases h0 : chkSpecies ions [.str s0] with e | sa
  · rw [h0] at h; cases h
  rcases h1 : chkSpecies ions [.str s1] with e | sb
  · rw [h0, h1] at h; cases h
  rw [h0, h1] at h
  rcases sa with _ | ⟨x, _ | ⟨x', l⟩⟩ <;> rcases sb with _ | ⟨y, _ | ⟨y', l'⟩⟩ <;> first | (cases h; done) | skip
  simp only [] at h
  split at h
  · rename_i hh
    injection h with h; injection h with e1 e2; subst e1; subst e2
    simp only [Bool.and_eq_true, List.contains_iff_mem] at hh
    exact ⟨plain h0 _ (by simp), plain h1 _ (by simp), hh.1, hh.2⟩
  · cases h

theorem chk_one_ne_nil (ions : List String) (s : String) : chkSpecies ions [.str s] ≠ .ok [] := by
  intro h
  rw [chkSpecies_eq, show conform [.str s] = conformS [s] from rfl, conformS_eq] at h
  split at h
  · cases h
  · rw [if_neg (by simp)] at h
    simp only [Except.bind] at h
    split at h
    · cases h
    · injection h with h
      have := (pySorted_perm (pySplit '+' s)).length_eq
      rw [h] at this
      exact pySplit_ne_nil '+' s (List.length_eq_zero_iff.mp (by simpa using this.symm))

variable (K : Const) (o : Obs)

/-! ## C216: the frame of reference -/

/-- C216: the drift of two plain species does not depend on the frame, whatever the data (NaN and infinities included) and whatever
the arguments (errors included). -/
theorem C216_drift (ions : List String) (s0 s1 : String) (h0 : '+' ∉ s0.toList) (h1 : '+' ∉ s1.toList) (ux uy uz : ℝ) :
    dv K (o.boost ux uy uz) ions s0 s1 false = dv K o ions s0 s1 false := by
  obtain ⟨r0, e0⟩ := velocity_plain K ions s0 h0 false
  obtain ⟨r1, e1⟩ := velocity_plain K ions s1 h1 false
  unfold dv
  rw [e0, e0, e1, e1]
  split
  · rfl
  · rcases r0 with e | ⟨⟩ <;> rcases r1 with e' | ⟨⟩ <;> simp only [Except.map]
    simp [Obs.boost, V3.shift_sub]

/-- C216: Coulomb logarithm and collision frequency do not depend on the frame: every row, every argument. -/
theorem C216_collisions (ions : List String) (s0 s1 : String) (both : Bool) (ux uy uz : ℝ) :
    lnlambda K (o.boost ux uy uz) ions s0 s1 = lnlambda K o ions s0 s1 ∧
    nuc K (o.boost ux uy uz) ions s0 s1 both = nuc K o ions s0 s1 both := by
  refine ⟨rfl, ?_⟩
  unfold nuc
  rcases h : twoSpecies ions s0 s1 with e | ⟨a, b⟩
  · rfl
  · obtain ⟨ha, hb, -, -⟩ := twoSpecies_plain h
    simp only []
    rw [C216_drift K o ions a b ha hb]
    rfl

/-- C216: nothing thermodynamic depends on the frame: every row, every argument. -/
theorem C216_scalars (ions args : List String) (ux uy uz : ℝ) (c : String) (skipna pdyn : Bool) :
    numberDensity (o.boost ux uy uz) ions skipna args = numberDensity o ions skipna args ∧
    massDensity K (o.boost ux uy uz) ions args = massDensity K o ions args ∧
    pth K (o.boost ux uy uz) ions c args = pth K o ions c args ∧
    temperature K (o.boost ux uy uz) ions c args = temperature K o ions c args ∧
    beta K (o.boost ux uy uz) ions c args = beta K o ions c args ∧
    anisotropy K (o.boost ux uy uz) ions args = anisotropy K o ions args ∧
    soundSpeed K (o.boost ux uy uz) ions args = soundSpeed K o ions args ∧
    ca K (o.boost ux uy uz) ions args = ca K o ions args ∧
    afsq K (o.boost ux uy uz) ions pdyn args = afsq K o ions pdyn args ∧
    caani K (o.boost ux uy uz) ions pdyn args = caani K o ions pdyn args ∧
    specificEntropy K (o.boost ux uy uz) ions args = specificEntropy K o ions args :=
  ⟨rfl, rfl, rfl, rfl, rfl, rfl, rfl, rfl, rfl, rfl, rfl⟩

/-! ### Measured rows -/

/-- a row of real numbers -/
def V3.IsReal (v : V3) : Prop := ∃ x y z : ℝ, v = V3.ofReal x y z

/-- `o'` is `o` after the rotation `R` followed by the boost `u` (on the species of the plasma) -/
structure Moved (R : Rot) (ux uy uz : ℝ) (o o' : Obs) (ions : List String) : Prop where
  n : o'.n = o.n
  w : o'.w = o.w
  v : ∀ s ∈ ions, o'.v s = V3.shift ux uy uz (V3.turn R (o.v s))
  b : o'.b = V3.turn R o.b

theorem V3.turn_ofReal (R : Rot) (x y z : ℝ) : V3.turn R (V3.ofReal x y z) =
    V3.ofReal (x * R.a + y * R.b + z * R.c) (x * R.d + y * R.e + z * R.f) (x * R.g + y * R.h + z * R.i) := by
  simp [V3.turn, V3.ofReal]

theorem V3.shift_ofReal (ux uy uz x y z : ℝ) : V3.shift ux uy uz (V3.ofReal x y z) =
    V3.ofReal (x + ux) (y + uy) (z + uz) := by
  simp [V3.shift, V3.ofReal]

theorem V3.turn_real (R : Rot) {v : V3} (h : v.IsReal) : (V3.turn R v).IsReal := by
  obtain ⟨x, y, z, rfl⟩ := h; rw [V3.turn_ofReal]; exact ⟨_, _, _, rfl⟩

theorem V3.shift_real (ux uy uz : ℝ) {v : V3} (h : v.IsReal) : (V3.shift ux uy uz v).IsReal := by
  obtain ⟨x, y, z, rfl⟩ := h; rw [V3.shift_ofReal]; exact ⟨_, _, _, rfl⟩

theorem V3.turn_sub (R : Rot) {v w : V3} (hv : v.IsReal) (hw : w.IsReal) :
    V3.sub (V3.turn R v) (V3.turn R w) = V3.turn R (V3.sub v w) := by
  obtain ⟨x, y, z, rfl⟩ := hv; obtain ⟨x', y', z', rfl⟩ := hw
  simp only [V3.turn_ofReal, V3.sub_ofReal]
  congr 1 <;> ring

theorem V3.sub_real {v w : V3} (hv : v.IsReal) (hw : w.IsReal) : (V3.sub v w).IsReal := by
  obtain ⟨x, y, z, rfl⟩ := hv; obtain ⟨x', y', z', rfl⟩ := hw
  rw [V3.sub_ofReal]; exact ⟨_, _, _, rfl⟩

/-- lengths and scalar products are preserved -/
theorem Rot.dot (R : Rot) (x y z p q r : ℝ) :
    (x * R.a + y * R.b + z * R.c) * (p * R.a + q * R.b + r * R.c) +
    (x * R.d + y * R.e + z * R.f) * (p * R.d + q * R.e + r * R.f) +
    (x * R.g + y * R.h + z * R.i) * (p * R.g + q * R.h + r * R.i) = x * p + y * q + z * r := by
  linear_combination x * p * R.xx + y * q * R.yy + z * r * R.zz + (x * q + y * p) * R.xy + (x * r + z * p) * R.xz
    + (y * r + z * q) * R.yz

theorem Rot.nsq (R : Rot) (x y z : ℝ) :
    V3.nsq (x * R.a + y * R.b + z * R.c) (x * R.d + y * R.e + z * R.f) (x * R.g + y * R.h + z * R.i) = V3.nsq x y z := by
  have := R.dot x y z x y z
  unfold V3.nsq; linear_combination this

theorem V3.mag_turn (R : Rot) {v : V3} (h : v.IsReal) : (V3.turn R v).mag = v.mag := by
  obtain ⟨x, y, z, rfl⟩ := h
  rw [V3.turn_ofReal, V3.mag_ofReal, V3.mag_ofReal]
  have := R.nsq x y z
  unfold V3.nsq at this; rw [this]

theorem V3.sqSum_turn (R : Rot) {v : V3} (h : v.IsReal) : (V3.turn R v).sqSum = v.sqSum := by
  obtain ⟨x, y, z, rfl⟩ := h
  rw [V3.turn_ofReal, V3.sqSum_ofReal, V3.sqSum_ofReal]
  have := R.nsq x y z
  unfold V3.nsq at this; rw [this]

theorem nsq_eq_zero {x y z : ℝ} (h : V3.nsq x y z = 0) : (x, y, z) = (0, 0, 0) := by
  by_contra hn; exact (V3.nsq_pos hn).ne' h

theorem proj_zero (v : V3) : V3.projPar v (V3.ofReal 0 0 0) = .fin 0 ∧ V3.projPer v (V3.ofReal 0 0 0) = .fin 0 := by
  have hz : (Fl.fin 0 / Fl.fin 0 : Fl) = .nan := by
    show Fl.div _ _ = _; simp [Fl.div]
  have hu : (V3.ofReal 0 0 0).uv = ⟨.nan, .nan, .nan⟩ := by
    unfold V3.uv; rw [V3.mag_ofReal]; simp [V3.ofReal, hz]
  have h1 : V3.projPar v (V3.ofReal 0 0 0) = .fin 0 := by
    unfold V3.projPar; rw [hu]; simp [Fl.zero_def]
  refine ⟨h1, ?_⟩
  unfold V3.projPer; rw [hu, h1]; simp [Fl.zero_def, Fl.sqrt_fin]

theorem V3.proj_turn (R : Rot) {v b : V3} (hv : v.IsReal) (hb : b.IsReal) :
    V3.projPar (V3.turn R v) (V3.turn R b) = V3.projPar v b ∧ V3.projPer (V3.turn R v) (V3.turn R b) = V3.projPer v b := by
  obtain ⟨x, y, z, rfl⟩ := hv
  obtain ⟨p, q, r, rfl⟩ := hb
  rw [V3.turn_ofReal, V3.turn_ofReal]
  by_cases h : (p, q, r) = (0, 0, 0)
  · simp only [Prod.mk.injEq] at h
    obtain ⟨rfl, rfl, rfl⟩ := h
    simp only [zero_mul, add_zero, (proj_zero _).1, (proj_zero _).2, and_self]
  · have h' : (p * R.a + q * R.b + r * R.c, p * R.d + q * R.e + r * R.f, p * R.g + q * R.h + r * R.i) ≠ (0, 0, 0) := by
      intro e
      simp only [Prod.mk.injEq] at e
      apply h; apply nsq_eq_zero
      rw [← R.nsq p q r, e.1, e.2.1, e.2.2]; simp [V3.nsq]
    rw [V3.projPar_ofReal _ _ _ _ _ _ h, V3.projPar_ofReal _ _ _ _ _ _ h', V3.projPer_ofReal _ _ _ _ _ _ h,
      V3.projPer_ofReal _ _ _ _ _ _ h', R.nsq, R.nsq, R.dot]
    exact ⟨rfl, rfl⟩

/-- the centre of mass of measured species with positive densities is real -/
theorem vCom_real {l : List String} {d : RData} (hm : Measured o l d) (hn : ∀ s ∈ l, 0 < d.n s) (hne : l ≠ []) :
    (vCom K o l).IsReal := by
  rw [vCom_fin hm (list_sum_pos hne (fun s hs => rR_pos K (hn s hs))).ne']
  exact ⟨_, _, _, rfl⟩

theorem comR_lin (d : RData) (l : List String) (f g h : String → ℝ) (a b c u : ℝ) (hr : (l.map (rR K d)).sum ≠ 0) :
    comR K d l (fun s => f s * a + g s * b + h s * c + u) = comR K d l f * a + comR K d l g * b + comR K d l h * c + u := by
  unfold comR
  have e : (l.map fun s => (f s * a + g s * b + h s * c + u) * rR K d s).sum =
      (l.map fun s => f s * rR K d s).sum * a + (l.map fun s => g s * rR K d s).sum * b +
      (l.map fun s => h s * rR K d s).sum * c + u * (l.map (rR K d)).sum := by
    clear hr
    induction l with
    | nil => simp
    | cons t l ih => simp only [List.map_cons, List.sum_cons, ih]; ring
  rw [e]; field_simp

variable {K o} in
/-- the moved centre of mass -/
theorem vCom_moved {R : Rot} {ux uy uz : ℝ} {o' : Obs} {ions l : List String} {d : RData}
    (hmv : Moved R ux uy uz o o' ions) (hm : Measured o ions d) (hn : ∀ s ∈ ions, 0 < d.n s) (hl : ∀ s ∈ l, s ∈ ions)
    (hne : l ≠ []) : vCom K o' l = V3.shift ux uy uz (V3.turn R (vCom K o l)) := by
  have hr := (list_sum_pos (f := rR K d) hne (fun s hs => rR_pos K (hn s (hl s hs)))).ne'
  have hml := hm.sub hl
  have hm' : Measured o' l { d with
      vx := fun s => d.vx s * R.a + d.vy s * R.b + d.vz s * R.c + ux
      vy := fun s => d.vx s * R.d + d.vy s * R.e + d.vz s * R.f + uy
      vz := fun s => d.vx s * R.g + d.vy s * R.h + d.vz s * R.i + uz
      bx := d.bx * R.a + d.by_ * R.b + d.bz * R.c
      by_ := d.bx * R.d + d.by_ * R.e + d.bz * R.f
      bz := d.bx * R.g + d.by_ * R.h + d.bz * R.i } :=
    ⟨fun s hs => by rw [hmv.n]; exact hml.n s hs,
     fun s hs => by rw [hmv.v s (hl s hs), hml.v s hs, V3.turn_ofReal, V3.shift_ofReal],
     fun s hs c hc => by rw [hmv.w]; exact hml.w s hs c hc,
     by rw [hmv.b, hm.b, V3.turn_ofReal]⟩
  rw [vCom_fin hml hr, vCom_fin hm' hr, V3.turn_ofReal, V3.shift_ofReal]
  have e : ∀ f, comR K { d with
      vx := fun s => d.vx s * R.a + d.vy s * R.b + d.vz s * R.c + ux
      vy := fun s => d.vx s * R.d + d.vy s * R.e + d.vz s * R.f + uy
      vz := fun s => d.vx s * R.g + d.vy s * R.h + d.vz s * R.i + uz
      bx := d.bx * R.a + d.by_ * R.b + d.bz * R.c
      by_ := d.bx * R.d + d.by_ * R.e + d.bz * R.f
      bz := d.bx * R.g + d.by_ * R.h + d.bz * R.i } l f = comR K d l f := fun _ => rfl
  rw [e, e, e, comR_lin K d l _ _ _ _ _ _ _ hr, comR_lin K d l _ _ _ _ _ _ _ hr, comR_lin K d l _ _ _ _ _ _ _ hr]

/-- all vectors of a result are real -/
def Res.AllReal : Res V3 → Prop
  | .total v => v.IsReal
  | .each l => ∀ p ∈ l, p.2.IsReal

variable {K o} in
theorem velocity_moved {R : Rot} {ux uy uz : ℝ} {o' : Obs} {ions : List String} {d : RData}
    (hmv : Moved R ux uy uz o o' ions) (hm : Measured o ions d) (hn : ∀ s ∈ ions, 0 < d.n s) (args : List String) :
    velocity K o' ions args false =
      (velocity K o ions args false).map (Res.map fun v => V3.shift ux uy uz (V3.turn R v)) ∧
    ∀ r, velocity K o ions args false = .ok r → r.AllReal := by
  have hv : ∀ s ∈ ions, (o.v s).IsReal := fun s hs => ⟨_, _, _, hm.v s hs⟩
  unfold velocity
  rcases hc : chkSpecies ions (args.map PyVal.str) with e | st
  · exact ⟨rfl, fun r h => by cases h⟩
  · rcases st with _ | ⟨a, _ | ⟨b, l⟩⟩
    · simp only []
      have hlen : args.length ≠ 1 := by
        intro hl
        match args, hl with
        | [s], _ => exact chk_one_ne_nil ions s hc
      simp [hlen, Except.map, Res.map, Res.AllReal]
    · simp only []
      by_cases hi : a ∈ ions
      · simp only [List.contains_iff_mem.mpr hi, Bool.not_true, Bool.false_eq_true, if_false]
        refine ⟨?_, ?_⟩
        · rw [hmv.v a hi]; rfl
        · intro r h; injection h with h; subst h; exact hv a hi
      · simp only [show ions.contains a = false by simpa using hi]
        exact ⟨rfl, fun r h => by cases h⟩
    · simp only [Bool.false_eq_true, if_false]
      by_cases hany : (a :: b :: l).any (fun s => !ions.contains s) = true
      · rw [if_pos hany, if_pos hany]; exact ⟨rfl, fun r h => by cases h⟩
      · rw [if_neg hany, if_neg hany]
        have hin : ∀ s ∈ a :: b :: l, s ∈ ions := by
          intro s hs
          by_contra hn
          exact hany (List.any_eq_true.mpr ⟨s, hs, by simpa using hn⟩)
        have hin' : ∀ s ∈ (a :: b :: l).dedup, s ∈ ions := fun s hs => hin s (List.mem_dedup.mp hs)
        have hne : (a :: b :: l).dedup ≠ [] := by
          intro e
          have : a ∈ (a :: b :: l).dedup := List.mem_dedup.mpr (by simp)
          rw [e] at this; simp at this
        split
        · refine ⟨?_, ?_⟩
          · rw [vCom_moved hmv hm hn hin' hne]; rfl
          · intro r h; injection h with h; subst h
            exact vCom_real K o (hm.sub hin') (fun s hs => hn s (hin' s hs)) hne
        · refine ⟨?_, ?_⟩
          · simp only [Except.map, Res.map, List.map_map]
            congr 2
            apply List.map_congr_left
            intro s hs
            simp only [Function.comp, hmv.v s (hin s hs)]
          · intro r h; injection h with h; subst h
            intro p hp
            obtain ⟨s, hs, rfl⟩ := List.mem_map.mp hp
            exact hv s (hin s hs)

variable {K o} in
theorem dv_moved {R : Rot} {ux uy uz : ℝ} {o' : Obs} {ions : List String} {d : RData}
    (hmv : Moved R ux uy uz o o' ions) (hm : Measured o ions d) (hn : ∀ s ∈ ions, 0 < d.n s) (s0 s1 : String) :
    dv K o' ions s0 s1 false = (dv K o ions s0 s1 false).map (V3.turn R) ∧
    ∀ v, dv K o ions s0 s1 false = .ok v → v.IsReal := by
  obtain ⟨e0, r0⟩ := velocity_moved (K := K) hmv hm hn [s0]
  obtain ⟨e1, r1⟩ := velocity_moved (K := K) hmv hm hn [s1]
  unfold dv
  rw [e0, e1]
  split
  · exact ⟨rfl, fun v h => by cases h⟩
  · rcases h0 : velocity K o ions [s0] false with e | (v0 | l0)
    · exact ⟨rfl, fun v h => by cases h⟩
    · rcases h1 : velocity K o ions [s1] false with e | (v1 | l1)
      · exact ⟨rfl, fun v h => by cases h⟩
      · have hv0 := r0 _ h0
        have hv1 := r1 _ h1
        refine ⟨?_, ?_⟩
        · simp only [Except.map, Res.map, V3.shift_sub, V3.turn_sub R hv0 hv1]
        · intro v h; injection h with h; subst h; exact V3.sub_real hv0 hv1
      · exact ⟨rfl, fun v h => by cases h⟩
    · exact ⟨rfl, fun v h => by cases h⟩

/-- two fallible evaluations that agree up to a map -/
theorem forEach_moved {α : Type} (f f' : String → Except PyErr α) (g : α → α) (P : α → Prop)
    (h : ∀ s, f' s = (f s).map g ∧ ∀ a, f s = .ok a → P a) (l : List String) :
    (∃ e, forEach f l = .error e ∧ forEach f' l = .error e) ∨
    ∃ as, forEach f l = .ok as ∧ forEach f' l = .ok (as.map g) ∧ ∀ a ∈ as, P a := by
  induction l with
  | nil => exact Or.inr ⟨[], rfl, rfl, by simp⟩
  | cons s l ih =>
    obtain ⟨e1, p1⟩ := h s
    rcases hs : f s with e | a
    · left; refine ⟨e, ?_, ?_⟩
      · rw [forEach, hs]
      · rw [forEach, e1, hs]; rfl
    · rcases ih with ⟨e, i1, i2⟩ | ⟨as, i1, i2, i3⟩
      · left; refine ⟨e, ?_, ?_⟩
        · rw [forEach, hs, i1]
        · rw [forEach, e1, hs, i2]; rfl
      · right; refine ⟨a :: as, ?_, ?_, ?_⟩
        · rw [forEach, hs, i1]
        · rw [forEach, e1, hs, i2]; rfl
        · intro x hx
          rcases List.mem_cons.mp hx with rfl | hx
          · exact p1 _ hs
          · exact i3 x hx

theorem zip_moved {α β : Type} (g : α → α) (q q' : String × α → β) (P : α → Prop) (hq : ∀ s a, P a → q' (s, g a) = q (s, a))
    (l : List String) (as : List α) (hP : ∀ a ∈ as, P a) :
    (l.zip (as.map g)).map q' = (l.zip as).map q := by
  induction l generalizing as with
  | nil => rfl
  | cons s l ih =>
    cases as with
    | nil => rfl
    | cons a as =>
      simp only [List.map_cons, List.zip_cons_cons]
      rw [hq s a (hP a (by simp)), ih as (fun x hx => hP x (by simp [hx]))]

variable {K o} in
theorem pdynamic_moved {R : Rot} {ux uy uz : ℝ} {o' : Obs} {ions : List String} {d : RData}
    (hmv : Moved R ux uy uz o o' ions) (hm : Measured o ions d) (hn : ∀ s ∈ ions, 0 < d.n s) (args : List String) :
    pdynamic K o' ions args false = pdynamic K o ions args false := by
  unfold pdynamic
  rcases chkSpecies ions (args.map PyVal.str) with e | st
  · rfl
  · simp only [Bool.not_false, if_true]
    split
    · rfl
    · rcases resolve ions st with e | sl
      · rfl
      · simp only []
        rcases forEach_moved (fun s => dv K o ions s (pyJoin '+' args) false) (fun s => dv K o' ions s (pyJoin '+' args) false)
          (V3.turn R) V3.IsReal (fun s => dv_moved hmv hm hn s _) sl with ⟨e, h1, h2⟩ | ⟨as, h1, h2, h3⟩
        · rw [h1, h2]
        · rw [h1, h2]
          simp only []
          rw [zip_moved (V3.turn R) (fun p => V3.sqSum p.2 * rhoS K o p.1) (fun p => V3.sqSum p.2 * rhoS K o' p.1) V3.IsReal
            (fun s a ha => by simp only [V3.sqSum_turn R ha, rhoS, hmv.n]) sl as h3]

variable {K o} in
theorem heatFlux_moved {R : Rot} {ux uy uz : ℝ} {o' : Obs} {ions : List String} {d : RData}
    (hmv : Moved R ux uy uz o o' ions) (hm : Measured o ions d) (hn : ∀ s ∈ ions, 0 < d.n s) (args : List String) :
    heatFlux K o' ions args = heatFlux K o ions args := by
  have hb : o.b.IsReal := ⟨_, _, _, hm.b⟩
  unfold heatFlux
  rcases chkSpecies ions (args.map PyVal.str) with e | st
  · rfl
  · simp only []
    split
    · rfl
    · rcases resolve ions st with e | sl
      · rfl
      · simp only []
        rcases forEach_moved (fun s => dv K o ions s (pyJoin '+' st) false) (fun s => dv K o' ions s (pyJoin '+' st) false)
          (V3.turn R) V3.IsReal (fun s => dv_moved hmv hm hn s _) st with ⟨e, h1, h2⟩ | ⟨as, h1, h2, h3⟩
        · rw [h1, h2]
        · rw [h1, h2]
          simp only []
          rw [zip_moved (V3.turn R) (fun p => (p.1, qparOf K o p.1 (V3.projPar p.2 o.b)))
            (fun p => (p.1, qparOf K o' p.1 (V3.projPar p.2 o'.b))) V3.IsReal
            (fun s a ha => by simp only [hmv.b, (V3.proj_turn R ha hb).1, qparOf, rhoS, hmv.n, hmv.w]) st as h3]

variable {K o} in
theorem nuc_moved {R : Rot} {ux uy uz : ℝ} {o' : Obs} {ions : List String} {d : RData}
    (hmv : Moved R ux uy uz o o' ions) (hm : Measured o ions d) (hn : ∀ s ∈ ions, 0 < d.n s) (s0 s1 : String) (both : Bool) :
    nuc K o' ions s0 s1 both = nuc K o ions s0 s1 both := by
  unfold nuc
  rcases twoSpecies ions s0 s1 with e | ⟨a, b⟩
  · rfl
  · simp only []
    obtain ⟨h1, h2⟩ := dv_moved (K := K) hmv hm hn a b
    rw [h1]
    rcases hd : dv K o ions a b false with e | v
    · rfl
    · simp only [Except.map, nuabOf, lnlambdaOf, tempS, rhoS, hmv.n, hmv.w, V3.mag_turn R (h2 v hd)]

/-- the identity rotation -/
noncomputable def Rot.one : Rot :=
  ⟨1, 0, 0, 0, 1, 0, 0, 0, 1, by norm_num, by norm_num, by norm_num, by norm_num, by norm_num, by norm_num⟩

theorem V3.turn_one {v : V3} (h : v.IsReal) : V3.turn Rot.one v = v := by
  obtain ⟨x, y, z, rfl⟩ := h; rw [V3.turn_ofReal]; simp [Rot.one]

variable {o} in
theorem boost_moved {ions : List String} {d : RData} (hm : Measured o ions d) (ux uy uz : ℝ) :
    Moved Rot.one ux uy uz o (o.boost ux uy uz) ions :=
  ⟨rfl, rfl, fun s hs => by rw [V3.turn_one ⟨_, _, _, hm.v s hs⟩]; rfl, (V3.turn_one ⟨_, _, _, hm.b⟩).symm⟩

variable {o} in
theorem rotate_moved {ions : List String} {d : RData} (hm : Measured o ions d) (R : Rot) :
    Moved R 0 0 0 o (o.rotate R) ions := by
  refine ⟨rfl, rfl, fun s hs => ?_, rfl⟩
  show V3.turn R (o.v s) = _
  rw [hm.v s hs, V3.turn_ofReal, V3.shift_ofReal]; simp

/-! ## C216, measured rows: sums of species -/

/-- C216: on a row where every species of the plasma is measured with positive density, every velocity the plasma reports (one
species, several columns, the centre of mass) is shifted by the boost, for every argument list; errors are the same. -/
theorem C216_velocity (ions args : List String) (d : RData) (hm : Measured o ions d) (hn : ∀ s ∈ ions, 0 < d.n s)
    (ux uy uz : ℝ) :
    velocity K (o.boost ux uy uz) ions args false =
      (velocity K o ions args false).map (Res.map (V3.shift ux uy uz)) := by
  obtain ⟨h1, h2⟩ := velocity_moved (K := K) (boost_moved hm ux uy uz) hm hn args
  rw [h1]
  rcases hv : velocity K o ions args false with e | (v | l)
  · rfl
  · have : v.IsReal := h2 _ hv
    simp only [Except.map, Res.map, V3.turn_one this]
  · have : ∀ p ∈ l, p.2.IsReal := h2 _ hv
    simp only [Except.map, Res.map]
    congr 2
    apply List.map_congr_left
    intro p hp; rw [V3.turn_one (this p hp)]

/-- C216: drifts (of sums as well), dynamic pressure, heat flux and collision frequency do not depend on the frame, for every
argument. -/
theorem C216_invariant (ions args : List String) (d : RData) (hm : Measured o ions d) (hn : ∀ s ∈ ions, 0 < d.n s)
    (ux uy uz : ℝ) (s0 s1 : String) :
    dv K (o.boost ux uy uz) ions s0 s1 false = dv K o ions s0 s1 false ∧
    pdynamic K (o.boost ux uy uz) ions args false = pdynamic K o ions args false ∧
    heatFlux K (o.boost ux uy uz) ions args = heatFlux K o ions args := by
  have hmv := boost_moved hm ux uy uz
  refine ⟨?_, pdynamic_moved hmv hm hn args, heatFlux_moved hmv hm hn args⟩
  obtain ⟨h1, h2⟩ := dv_moved (K := K) hmv hm hn s0 s1
  rw [h1]
  rcases hv : dv K o ions s0 s1 false with e | v
  · rfl
  · simp only [Except.map, V3.turn_one (h2 v hv)]

/-! ### Electrons -/

variable {K o} in
/-- charge density and charge flux of measured species -/
theorem charge_sums {species : List String} {d : RData} (hm : Measured o species d) (hne : species ≠ []) :
    (if species.length = 1 then o.n (species.headD "") * .fin (K.chargeState (species.headD ""))
      else Fl.sumSkip (species.map fun s => o.n s * .fin (K.chargeState s))) =
        .fin (species.map fun s => K.chargeState s * d.n s).sum ∧
    ∀ (f : String → Fl) (g : String → ℝ), (∀ s ∈ species, f s = .fin (g s)) →
      (if species.length = 1 then f (species.headD "") * (o.n (species.headD "") * .fin (K.chargeState (species.headD "")))
      else Fl.sumSkip (species.map fun s => f s * (o.n s * .fin (K.chargeState s)))) =
      .fin (species.map fun s => K.chargeState s * d.n s * g s).sum := by
  have hniqi : ∀ s ∈ species, o.n s * .fin (K.chargeState s) = .fin (K.chargeState s * d.n s) := by
    intro s hs; rw [hm.n s hs, Fl.fin_mul, mul_comm]
  match species, hne with
  | [s], _ =>
    refine ⟨?_, fun f g hg => ?_⟩
    · simp only [List.length_singleton, if_true, List.headD_cons, hniqi s (by simp)]; simp
    · simp only [List.length_singleton, if_true, List.headD_cons, hniqi s (by simp), hg s (by simp)]; simp [mul_comm]
  | s :: t :: l, _ =>
    refine ⟨?_, fun f g hg => ?_⟩
    · rw [if_neg (by simp), Fl.sumSkip_fin' _ _ _ hniqi]
    · rw [if_neg (by simp), Fl.sumSkip_fin' _ _ (fun s => K.chargeState s * d.n s * g s)]
      intro s hs; rw [hniqi s hs, hg s hs, Fl.fin_mul, mul_comm]

theorem protonOf_ne_nil {species : List String} {tkw : String} (h : protonOf species = .ok tkw) : species ≠ [] := by
  rintro rfl; cases h

variable {K o} in
theorem electrons_moved {R : Rot} {ux uy uz : ℝ} {o' : Obs} {species : List String} {d : RData}
    (hmv : Moved R ux uy uz o o' species) (hm : Measured o species d) :
    estimateElectrons K o' species =
      (estimateElectrons K o species).map fun e => { e with v := V3.shift ux uy uz (V3.turn R e.v) } := by
  unfold estimateElectrons
  rcases hp : protonOf species with e | tkw
  · rfl
  · simp only [Except.map]
    congr 1
    have hne := protonOf_ne_nil hp
    obtain ⟨hq, hf⟩ := charge_sums (K := K) hm hne
    have hx := hf (fun s => (o.v s).x) d.vx (fun s hs => by rw [hm.v s hs]; rfl)
    have hy := hf (fun s => (o.v s).y) d.vy (fun s hs => by rw [hm.v s hs]; rfl)
    have hz := hf (fun s => (o.v s).z) d.vz (fun s hs => by rw [hm.v s hs]; rfl)
    have mv : ∀ s ∈ species, o'.v s = V3.ofReal (d.vx s * R.a + d.vy s * R.b + d.vz s * R.c + ux)
        (d.vx s * R.d + d.vy s * R.e + d.vz s * R.f + uy) (d.vx s * R.g + d.vy s * R.h + d.vz s * R.i + uz) :=
      fun s hs => by rw [hmv.v s hs, hm.v s hs, V3.turn_ofReal, V3.shift_ofReal]
    have hx' := hf (fun s => (o'.v s).x) _ (fun s hs => by rw [mv s hs]; rfl)
    have hy' := hf (fun s => (o'.v s).y) _ (fun s hs => by rw [mv s hs]; rfl)
    have hz' := hf (fun s => (o'.v s).z) _ (fun s hs => by rw [mv s hs]; rfl)
    have lin : ∀ a b c u : ℝ, (species.map fun s => K.chargeState s * d.n s * (d.vx s * a + d.vy s * b + d.vz s * c + u)).sum =
        (species.map fun s => K.chargeState s * d.n s * d.vx s).sum * a +
        (species.map fun s => K.chargeState s * d.n s * d.vy s).sum * b +
        (species.map fun s => K.chargeState s * d.n s * d.vz s).sum * c +
        (species.map fun s => K.chargeState s * d.n s).sum * u := by
      intro a b c u
      generalize species = l
      induction l with
      | nil => simp
      | cons s l ih => simp only [List.map_cons, List.sum_cons, ih]; ring
    unfold electronsOf
    simp only [hmv.n, hmv.w, hq, hx, hy, hz, hx', hy', hz', lin]
    split
    · rfl
    · rename_i hS
      have hS' : (species.map fun s => K.chargeState s * d.n s).sum ≠ 0 := fun e => hS (by rw [e])
      simp only [Fl.fin_div _ _ hS', V3.shift, V3.turn, Fl.fin_mul, Fl.fin_add]
      congr 2 <;> (congr 1; field_simp)

/-- C216: the estimated electrons move with the frame; their density and thermal speed do not depend on it. -/
theorem C216_electrons (species : List String) (d : RData) (hm : Measured o species d) (ux uy uz : ℝ) :
    (∀ err, estimateElectrons K o species = .error err → estimateElectrons K (o.boost ux uy uz) species = .error err) ∧
    ∀ e, estimateElectrons K o species = .ok e → ∃ e', estimateElectrons K (o.boost ux uy uz) species = .ok e' ∧
      e'.n = e.n ∧ e'.w = e.w ∧ e'.v = V3.shift ux uy uz e.v := by
  have h := electrons_moved (K := K) (boost_moved hm ux uy uz) hm
  refine ⟨fun err he => by rw [h, he]; rfl, fun e he => ?_⟩
  have hr : V3.turn Rot.one e.v = e.v := by
    unfold estimateElectrons at he
    rcases hp : protonOf species with e' | tkw
    · rw [hp] at he; cases he
    · rw [hp] at he
      injection he with he
      obtain ⟨hq, hf⟩ := charge_sums (K := K) hm (protonOf_ne_nil hp)
      have hx := hf (fun s => (o.v s).x) d.vx (fun s hs => by rw [hm.v s hs]; rfl)
      have hy := hf (fun s => (o.v s).y) d.vy (fun s hs => by rw [hm.v s hs]; rfl)
      have hz := hf (fun s => (o.v s).z) d.vz (fun s hs => by rw [hm.v s hs]; rfl)
      unfold electronsOf at he
      simp only [hq, hx, hy, hz] at he
      rw [← he]
      split
      · rfl
      · rename_i hS
        have hS' : (species.map fun s => K.chargeState s * d.n s).sum ≠ 0 := fun e => hS (by rw [e])
        simp only [Fl.fin_div _ _ hS']
        exact V3.turn_one ⟨_, _, _, rfl⟩
  refine ⟨{ e with v := V3.shift ux uy uz (V3.turn Rot.one e.v) }, by rw [h, he]; rfl, rfl, rfl, ?_⟩
  simp only [hr]

/-! ### The mass-per-charge projection and missing velocities -/

/-- `sqrt(m / q)` of a species, in proton units -/
noncomputable def kap (K : Const) (s : String) : ℝ := Real.sqrt (K.mInMp s / K.chargeState s)

theorem m2q_fin (s : String) (hz : 0 < K.chargeState s) : m2q K s = .fin (kap K s) := by
  unfold m2q kap
  rw [Fl.fin_div _ _ hz.ne', Fl.sqrt_fin _ (div_pos (K.mInMp_pos s) hz).le]

theorem V3.scale_ofReal (k x y z : ℝ) : V3.scale (.fin k) (V3.ofReal x y z) = V3.ofReal (x * k) (y * k) (z * k) := by
  simp [V3.scale, V3.ofReal]

theorem dv_proj_fin (ions : List String) (a b : String) (h : Valid ions [a, b]) (d : RData) (hm : Measured o [a, b] d)
    (ha : 0 < K.chargeState a) (hb : 0 < K.chargeState b) :
    dv K o ions a b true = .ok (V3.ofReal (d.vx a * kap K a - d.vx b * kap K b) (d.vy a * kap K a - d.vy b * kap K b)
      (d.vz a * kap K a - d.vz b * kap K b)) := by
  have hab : a ≠ b := by have := h.nodup; simpa using this
  unfold dv
  rw [if_neg hab, velocity_single_proj h (show a ∈ [a, b] by simp), velocity_single_proj h (show b ∈ [a, b] by simp), m2q_fin K a ha,
    m2q_fin K b hb, hm.v a (by simp), hm.v b (by simp), V3.scale_ofReal, V3.scale_ofReal]
  simp only [V3.sub_ofReal]

/-- the boosted row is measured -/
theorem boost_measured {ps : List String} {d : RData} (hm : Measured o ps d) (ux uy uz : ℝ) :
    Measured (o.boost ux uy uz) ps { d with vx := fun s => d.vx s + ux, vy := fun s => d.vy s + uy, vz := fun s => d.vz s + uz } :=
  ⟨hm.n, fun s hs => by
    show V3.shift ux uy uz (o.v s) = _
    rw [hm.v s hs, V3.shift_ofReal], hm.w, hm.b⟩

/-- C216 (violated by the `project_m2q` drift): the drift of two species projected by mass per charge is the same in every frame
exactly when both have the same mass per charge. -/
theorem C216_projected (ions : List String) (a b : String) (h : Valid ions [a, b]) (d : RData) (hm : Measured o [a, b] d)
    (ha : 0 < K.chargeState a) (hb : 0 < K.chargeState b) :
    (∀ ux uy uz : ℝ, dv K (o.boost ux uy uz) ions a b true = dv K o ions a b true) ↔
      K.mInMp a / K.chargeState a = K.mInMp b / K.chargeState b := by
  have e : ∀ ux uy uz : ℝ, dv K (o.boost ux uy uz) ions a b true = .ok (V3.ofReal
      ((d.vx a + ux) * kap K a - (d.vx b + ux) * kap K b) ((d.vy a + uy) * kap K a - (d.vy b + uy) * kap K b)
      ((d.vz a + uz) * kap K a - (d.vz b + uz) * kap K b)) := fun ux uy uz =>
    dv_proj_fin K (o.boost ux uy uz) ions a b h _ (boost_measured o hm ux uy uz) ha hb
  constructor
  · intro hall
    have := hall 1 0 0
    rw [e, dv_proj_fin K o ions a b h d hm ha hb] at this
    simp only [Except.ok.injEq, V3.ofReal, V3.mk.injEq, Fl.fin_inj] at this
    have hk : kap K a = kap K b := by linarith [this.1]
    unfold kap at hk
    exact (Real.sqrt_inj (div_pos (K.mInMp_pos a) ha).le (div_pos (K.mInMp_pos b) hb).le).mp hk
  · intro hk ux uy uz
    have hk' : kap K a = kap K b := by unfold kap; rw [hk]
    rw [e, dv_proj_fin K o ions a b h d hm ha hb, hk']
    congr 2 <;> ring

/-- C216: for two species of the same mass per charge (a beam and a core of the same ion) the VDF ratio and the projected dynamic
pressure do not depend on the frame. -/
theorem C216_same_ion (ions : List String) (a b : String) (h : Valid ions [a, b]) (d : RData) (hm : Measured o [a, b] d)
    (ha : 0 < K.chargeState a) (hb : 0 < K.chargeState b)
    (hk : K.mInMp a / K.chargeState a = K.mInMp b / K.chargeState b) (ux uy uz : ℝ) :
    vdfRatio K (o.boost ux uy uz) ions a b = vdfRatio K o ions a b ∧
    pdynamic K (o.boost ux uy uz) ions [a, b] true = pdynamic K o ions [a, b] true := by
  obtain ⟨va, vb, -⟩ := pair_valid h
  have hd := (C216_projected K o ions a b h d hm ha hb).mpr hk ux uy uz
  refine ⟨?_, ?_⟩
  rotate_left
  · unfold pdynamic
    rw [chk_args h]
    have hp := pySorted_perm [a, b]
    rcases hs : pySorted [a, b] with _ | ⟨x, _ | ⟨y, _ | ⟨z, l⟩⟩⟩
    · rw [hs] at hp; exact absurd hp.length_eq (by simp)
    · rw [hs] at hp; exact absurd hp.length_eq (by simp)
    · have hxy : Valid ions [x, y] := h.perm (by rw [← hs]; exact hp.symm)
      have hsub : ∀ s ∈ [x, y], s ∈ [a, b] := fun s h => hp.mem_iff.mp (by rw [hs]; exact h)
      have hz : ∀ s ∈ [a, b], 0 < K.chargeState s ∧ K.mInMp s / K.chargeState s = K.mInMp b / K.chargeState b := by
        intro s hs
        rcases List.mem_cons.mp hs with rfl | h
        · exact ⟨ha, hk⟩
        · rw [List.mem_singleton.mp h]; exact ⟨hb, rfl⟩
      have hx := hz x (hsub x (by simp))
      have hy := hz y (hsub y (by simp))
      have hd' := (C216_projected K o ions x y hxy d (hm.sub hsub) hx.1 hy.1).mpr (hx.2.trans hy.2.symm) ux uy uz
      simp only [List.length_cons, List.length_nil, Bool.not_true, List.getD_cons_zero, List.getD_cons_succ]
      rw [hd']
      rfl
    · rw [hs] at hp; exact absurd hp.length_eq (by simp)
  unfold vdfRatio
  rw [twoSpecies_ok va vb]
  simp only []
  rw [hd]; rfl

/-- C216 (violated): for two species of different mass per charge the VDF ratio reported for one and the same plasma exceeds any bound
in a suitable frame. -/
theorem C216_vdf_unbounded (ions : List String) (a b : String) (h : Valid ions [a, b]) (d : RData) (hm : Measured o [a, b] d)
    (ha : 0 < K.chargeState a) (hb : 0 < K.chargeState b) (hna : 0 < d.n a) (hnb : 0 < d.n b)
    (hw : ∀ s ∈ [a, b], ∀ c ∈ ["par", "per"], 0 < d.w s c) (hB : (d.bx, d.by_, d.bz) ≠ (0, 0, 0))
    (hk : K.mInMp a / K.chargeState a ≠ K.mInMp b / K.chargeState b) (M : ℝ) :
    ∃ (ux uy uz x : ℝ), vdfRatio K (o.boost ux uy uz) ions a b = .ok (.fin x) ∧ M < x := by
  obtain ⟨va, vb, -⟩ := pair_valid h
  have hkne : kap K a - kap K b ≠ 0 := by
    intro e
    apply hk
    have e' : kap K a = kap K b := by linarith
    unfold kap at e'
    exact (Real.sqrt_inj (div_pos (K.mInMp_pos a) ha).le (div_pos (K.mInMp_pos b) hb).le).mp e'
  have hBp := V3.nsq_pos hB
  have hs := Real.sqrt_pos.mpr hBp
  have wap := hw a (by simp) "par" (by simp)
  have wae := hw a (by simp) "per" (by simp)
  have wbp := hw b (by simp) "par" (by simp)
  have wbe := hw b (by simp) "per" (by simp)
  -- the parallel drift for the boost `t * b`
  have key : ∀ t : ℝ, ∃ q : ℝ, 0 ≤ q ∧ vdfRatio K (o.boost (t * d.bx) (t * d.by_) (t * d.bz)) ions a b = .ok (.fin
      (Real.log (d.n a / d.n b * (d.w b "par" / d.w a "par" * (d.w b "per" / d.w a "per") ^ 2)) +
        ((((d.vx a * kap K a - d.vx b * kap K b) * d.bx + (d.vy a * kap K a - d.vy b * kap K b) * d.by_ +
          (d.vz a * kap K a - d.vz b * kap K b) * d.bz + t * (kap K a - kap K b) * V3.nsq d.bx d.by_ d.bz) /
          Real.sqrt (V3.nsq d.bx d.by_ d.bz) / d.w b "par") ^ 2 + q))) := by
    intro t
    have hm' := boost_measured o hm (t * d.bx) (t * d.by_) (t * d.bz)
    unfold vdfRatio
    rw [twoSpecies_ok va vb]
    simp only []
    rw [dv_proj_fin K _ ions a b h _ hm' ha hb]
    simp only []
    unfold vdfRatioOf
    simp only [Obs.boost]
    rw [hm.n a (by simp), hm.n b (by simp), hm.w a (by simp) "par" (by simp), hm.w a (by simp) "per" (by simp),
      hm.w b (by simp) "par" (by simp), hm.w b (by simp) "per" (by simp), hm.b, V3.projPar_ofReal _ _ _ _ _ _ hB,
      V3.projPer_ofReal _ _ _ _ _ _ hB]
    simp only [Fl.fin_div _ _ hnb.ne', Fl.fin_div _ _ wap.ne', Fl.fin_div _ _ wae.ne', Fl.fin_div _ _ wbp.ne',
      Fl.fin_div _ _ wbe.ne', Fl.fin_mul, Fl.sq_fin, Fl.sumSkip_cons_fin, Fl.sumSkip_nil, Fl.zero_def, Fl.fin_add]
    rw [Fl.log_fin _ (by positivity)]
    have gen : ∀ (L A A' q : ℝ), A = A' → 0 ≤ q → ∃ q' : ℝ, 0 ≤ q' ∧
        (Except.ok (Fl.fin L + Fl.fin (A + (q + 0))) : Except PyErr Fl) = .ok (.fin (L + (A' + q'))) := by
      rintro L A A' q rfl hq; exact ⟨q, hq, by simp⟩
    apply gen
    · congr 3
      unfold V3.nsq; ring
    · positivity
  obtain ⟨L, hL⟩ : ∃ L, L = Real.log (d.n a / d.n b * (d.w b "par" / d.w a "par" * (d.w b "per" / d.w a "per") ^ 2)) := ⟨_, rfl⟩
  obtain ⟨D, hD⟩ : ∃ D, D = (d.vx a * kap K a - d.vx b * kap K b) * d.bx + (d.vy a * kap K a - d.vy b * kap K b) * d.by_ +
          (d.vz a * kap K a - d.vz b * kap K b) * d.bz := ⟨_, rfl⟩
  obtain ⟨y, hy⟩ : ∃ y : ℝ, y = |M - L| + 1 := ⟨_, rfl⟩
  have hy1 : 1 ≤ y := by rw [hy]; linarith [abs_nonneg (M - L)]
  obtain ⟨q, hq, hv⟩ := key ((y * (Real.sqrt (V3.nsq d.bx d.by_ d.bz) * d.w b "par") - D) /
    ((kap K a - kap K b) * V3.nsq d.bx d.by_ d.bz))
  refine ⟨_, _, _, _, hv, ?_⟩
  rw [← hL, ← hD]
  have e : (D + (y * (Real.sqrt (V3.nsq d.bx d.by_ d.bz) * d.w b "par") - D) /
    ((kap K a - kap K b) * V3.nsq d.bx d.by_ d.bz) * (kap K a - kap K b) * V3.nsq d.bx d.by_ d.bz) /
      Real.sqrt (V3.nsq d.bx d.by_ d.bz) / d.w b "par" = y := by
    have h1 := hs.ne'
    have h2 := hBp.ne'
    have h3 := wbp.ne'
    field_simp
    ring
  rw [e]
  have : M - L ≤ |M - L| := le_abs_self _
  nlinarith

/-- C216 (violated with missing velocities): when the velocity of some species is missing, the centre of mass follows the frame only by the
mass fraction of the others. -/
theorem C216_missing (ions ps : List String) (h : Valid ions ps) (hl : 2 ≤ ps.length) (n g : String → ℝ)
    (hn : ∀ s ∈ ps, 0 < n s) (hon : ∀ s ∈ ps, o.n s = .fin (n s)) (miss : String → Bool)
    (hg : ∀ s ∈ ps, (miss s = false ∧ (o.v s).x = .fin (g s)) ∨ (miss s = true ∧ (o.v s).x = .nan)) (ux uy uz : ℝ) :
    ∃ (v v' : V3) (c c' : ℝ), velocity K o ions [pyJoin '+' ps] false = .ok (.total v) ∧ v.x = .fin c ∧
      velocity K (o.boost ux uy uz) ions [pyJoin '+' ps] false = .ok (.total v') ∧ v'.x = .fin c' ∧
      c' = c + ux * ((ps.filter fun s => !miss s).map fun s => n s * K.mInMp s).sum / (ps.map fun s => n s * K.mInMp s).sum := by
  obtain ⟨v, hv, hx⟩ := C13_general K o ions ps h hl n (fun s => if miss s then 0 else g s) hn hon
    (fun s hs => by rcases hg s hs with ⟨e, h⟩ | ⟨e, h⟩ <;> simp [e, h])
  obtain ⟨v', hv', hx'⟩ := C13_general K (o.boost ux uy uz) ions ps h hl n (fun s => if miss s then 0 else g s + ux) hn hon
    (fun s hs => by rcases hg s hs with ⟨e, h⟩ | ⟨e, h⟩ <;> simp [e, h, Obs.boost, V3.shift])
  refine ⟨v, v', _, _, hv, hx, hv', hx', ?_⟩
  have e : (ps.map fun s => (if miss s then 0 else g s + ux) * (n s * K.mInMp s)).sum =
      (ps.map fun s => (if miss s then 0 else g s) * (n s * K.mInMp s)).sum +
      ux * ((ps.filter fun s => !miss s).map fun s => n s * K.mInMp s).sum := by
    clear hg hn hon h hl hv hv' hx hx'
    induction ps with
    | nil => simp
    | cons s l ih =>
      simp only [List.map_cons, List.sum_cons, ih, List.filter_cons]
      cases miss s <;> simp <;> ring
  rw [e, add_div]

/-! ## C217: the axes -/

/-- the rotated row is measured -/
theorem rotate_measured {ps : List String} {d : RData} (hm : Measured o ps d) (R : Rot) :
    Measured (o.rotate R) ps { d with
      vx := fun s => d.vx s * R.a + d.vy s * R.b + d.vz s * R.c
      vy := fun s => d.vx s * R.d + d.vy s * R.e + d.vz s * R.f
      vz := fun s => d.vx s * R.g + d.vy s * R.h + d.vz s * R.i
      bx := d.bx * R.a + d.by_ * R.b + d.bz * R.c
      by_ := d.bx * R.d + d.by_ * R.e + d.bz * R.f
      bz := d.bx * R.g + d.by_ * R.h + d.bz * R.i } :=
  ⟨hm.n, fun s hs => by
    show V3.turn R (o.v s) = _
    rw [hm.v s hs, V3.turn_ofReal], hm.w, by show V3.turn R o.b = _; rw [hm.b, V3.turn_ofReal]⟩

/-- C217: every velocity and every drift turns with the axes. -/
theorem C217_vectors (ions args : List String) (d : RData) (hm : Measured o ions d) (hn : ∀ s ∈ ions, 0 < d.n s) (R : Rot)
    (s0 s1 : String) :
    velocity K (o.rotate R) ions args false = (velocity K o ions args false).map (Res.map (V3.turn R)) ∧
    dv K (o.rotate R) ions s0 s1 false = (dv K o ions s0 s1 false).map (V3.turn R) := by
  have hmv := rotate_moved hm R
  refine ⟨?_, (dv_moved hmv hm hn s0 s1).1⟩
  obtain ⟨h1, h2⟩ := velocity_moved (K := K) hmv hm hn args
  have sh : ∀ v : V3, v.IsReal → V3.shift 0 0 0 (V3.turn R v) = V3.turn R v := by
    rintro v ⟨x, y, z, rfl⟩; rw [V3.turn_ofReal, V3.shift_ofReal]; simp
  rw [h1]
  rcases hv : velocity K o ions args false with e | (v | l)
  · rfl
  · have : v.IsReal := h2 _ hv
    simp only [Except.map, Res.map, sh v this]
  · have : ∀ p ∈ l, p.2.IsReal := h2 _ hv
    simp only [Except.map, Res.map]
    congr 2
    apply List.map_congr_left
    intro p hp; rw [sh p.2 (this p hp)]

/-- C217: everything that is not a vector is independent of the axes, for every argument (errors included). -/
theorem C217_scalars (ions args : List String) (d : RData) (hm : Measured o ions d) (hn : ∀ s ∈ ions, 0 < d.n s) (R : Rot)
    (c : String) (s0 s1 : String) (both pdyn skipna : Bool) (sc : Option Fl) :
    numberDensity (o.rotate R) ions skipna args = numberDensity o ions skipna args ∧
    massDensity K (o.rotate R) ions args = massDensity K o ions args ∧
    pth K (o.rotate R) ions c args = pth K o ions c args ∧
    temperature K (o.rotate R) ions c args = temperature K o ions c args ∧
    beta K (o.rotate R) ions c args = beta K o ions c args ∧
    ca K (o.rotate R) ions args = ca K o ions args ∧
    afsq K (o.rotate R) ions pdyn args = afsq K o ions pdyn args ∧
    caani K (o.rotate R) ions pdyn args = caani K o ions pdyn args ∧
    pdynamic K (o.rotate R) ions args false = pdynamic K o ions args false ∧
    heatFlux K (o.rotate R) ions args = heatFlux K o ions args ∧
    lnlambda K (o.rotate R) ions s0 s1 = lnlambda K o ions s0 s1 ∧
    nuc K (o.rotate R) ions s0 s1 both = nuc K o ions s0 s1 both ∧
    nc K (o.rotate R) ions sc s0 s1 both = nc K o ions sc s0 s1 both := by
  have hmv := rotate_moved hm R
  have hb : o.b.IsReal := ⟨_, _, _, hm.b⟩
  have hmag : (o.rotate R).b.mag = o.b.mag := V3.mag_turn R hb
  have hsq : (o.rotate R).b.sqSum = o.b.sqSum := V3.sqSum_turn R hb
  have hca : ∀ args, ca K (o.rotate R) ions args = ca K o ions args := by
    intro args; unfold ca caOf; rw [hmag]; rfl
  have haf : ∀ args, afsq K (o.rotate R) ions pdyn args = afsq K o ions pdyn args := by
    intro args; unfold afsq afsqOf; rw [hsq]; rfl
  refine ⟨rfl, rfl, rfl, rfl, ?_, hca args, haf args, ?_, pdynamic_moved hmv hm hn args, heatFlux_moved hmv hm hn args, rfl,
    nuc_moved hmv hm hn s0 s1 both, ?_⟩
  · unfold beta betaOf; rw [hmag]; rfl
  · unfold caani; simp only [hca, haf]
  · unfold nc
    rcases twoSpecies ions s0 s1 with e | ⟨a, b⟩
    · rfl
    · rcases sc with _ | r
      · rfl
      · simp only []
        obtain ⟨h1, h2⟩ := velocity_moved (K := K) hmv hm hn [pyJoin '+' ions]
        rw [h1, nuc_moved hmv hm hn a b both]
        rcases hv : velocity K o ions [pyJoin '+' ions] false with e | (v | l)
        · rfl
        · have hr : v.IsReal := h2 _ hv
          have : (V3.shift 0 0 0 (V3.turn R v)).mag = v.mag := by
            rw [← V3.mag_turn R hr]
            obtain ⟨x, y, z, e⟩ := V3.turn_real R hr
            rw [e, V3.shift_ofReal]; simp
          simp only [Except.map, Res.map, this]
        · rfl

/-- C217: the quantities that use the mass-per-charge projection are independent of the axes as well. -/
theorem C217_projected (ions : List String) (a b : String) (h : Valid ions [a, b]) (d : RData) (hm : Measured o [a, b] d)
    (ha : 0 < K.chargeState a) (hb : 0 < K.chargeState b) (R : Rot) :
    dv K (o.rotate R) ions a b true = (dv K o ions a b true).map (V3.turn R) ∧
    pdynamic K (o.rotate R) ions [a, b] true = pdynamic K o ions [a, b] true ∧
    vdfRatio K (o.rotate R) ions a b = vdfRatio K o ions a b := by
  obtain ⟨va, vb, -⟩ := pair_valid h
  have hB : o.b.IsReal := ⟨_, _, _, hm.b⟩
  have dvt : ∀ x y : String, Valid ions [x, y] → (∀ s ∈ [x, y], s ∈ [a, b]) → 
      dv K (o.rotate R) ions x y true = (dv K o ions x y true).map (V3.turn R) ∧
      ∃ v, dv K o ions x y true = .ok v ∧ v.IsReal := by
    intro x y hxy hs
    have hx : 0 < K.chargeState x := by
      rcases List.mem_cons.mp (hs x (by simp)) with rfl | h
      · exact ha
      · rw [List.mem_singleton.mp h]; exact hb
    have hy : 0 < K.chargeState y := by
      rcases List.mem_cons.mp (hs y (by simp)) with rfl | h
      · exact ha
      · rw [List.mem_singleton.mp h]; exact hb
    refine ⟨?_, _, dv_proj_fin K o ions x y hxy d (hm.sub hs) hx hy, ⟨_, _, _, rfl⟩⟩
    rw [dv_proj_fin K o ions x y hxy d (hm.sub hs) hx hy,
      dv_proj_fin K _ ions x y hxy _ (rotate_measured o (hm.sub hs) R) hx hy]
    simp only [Except.map, V3.turn_ofReal]
    congr 2 <;> ring
  refine ⟨(dvt a b h (fun _ h => h)).1, ?_, ?_⟩
  · unfold pdynamic
    rw [chk_args h]
    have hp := pySorted_perm [a, b]
    rcases hs : pySorted [a, b] with _ | ⟨x, _ | ⟨y, _ | ⟨z, l⟩⟩⟩
    · rw [hs] at hp; exact absurd hp.length_eq (by simp)
    · rw [hs] at hp; exact absurd hp.length_eq (by simp)
    · have hxy : Valid ions [x, y] := h.perm (by rw [← hs]; exact hp.symm)
      obtain ⟨e1, v, e2, hv⟩ := dvt x y hxy (fun s h => hp.mem_iff.mp (by rw [hs]; exact h))
      simp only [List.length_cons, List.length_nil, Bool.not_true, List.getD_cons_zero, List.getD_cons_succ]
      rw [e1, e2]
      simp only [Except.map, V3.sqSum_turn R hv]
      rfl
    · rw [hs] at hp; exact absurd hp.length_eq (by simp)
  · obtain ⟨e1, v, e2, hv⟩ := dvt a b h (fun _ h => h)
    unfold vdfRatio
    rw [twoSpecies_ok va vb]
    simp only []
    rw [e1, e2]
    simp only [Except.map, vdfRatioOf, Obs.rotate, (V3.proj_turn R hv hB).1, (V3.proj_turn R hv hB).2]

/-- C217: the estimated electrons turn with the axes. -/
theorem C217_electrons (species : List String) (d : RData) (hm : Measured o species d) (R : Rot) (e : Electrons)
    (he : estimateElectrons K o species = .ok e) : ∃ e', estimateElectrons K (o.rotate R) species = .ok e' ∧
      e'.n = e.n ∧ e'.w = e.w ∧ e'.v = V3.turn R e.v := by
  have h := electrons_moved (K := K) (rotate_moved hm R) hm
  refine ⟨{ e with v := V3.shift 0 0 0 (V3.turn R e.v) }, by rw [h, he]; rfl, rfl, rfl, ?_⟩
  have : ∀ x : Fl, x + .fin 0 = x := fun x => Fl.add_zero' x
  simp only [V3.shift, this]

/-- C217: angle and projection of two vectors do not depend on the axes. -/
theorem C217_vector_algebra (R : Rot) (x y z p q r : ℝ) :
    (V3.turn R (V3.ofReal x y z)).mag = (V3.ofReal x y z).mag ∧
    V3.projPar (V3.turn R (V3.ofReal x y z)) (V3.turn R (V3.ofReal p q r)) = V3.projPar (V3.ofReal x y z) (V3.ofReal p q r) ∧
    V3.projPer (V3.turn R (V3.ofReal x y z)) (V3.turn R (V3.ofReal p q r)) = V3.projPer (V3.ofReal x y z) (V3.ofReal p q r) :=
  ⟨V3.mag_turn R ⟨_, _, _, rfl⟩, V3.proj_turn R ⟨_, _, _, rfl⟩ ⟨_, _, _, rfl⟩⟩

/-! ### Concrete cases -/

/-- a rotation by 90 degrees about the z axis -/
noncomputable def quarter : Rot :=
  ⟨0, -1, 0, 1, 0, 0, 0, 0, 1, by norm_num, by norm_num, by norm_num, by norm_num, by norm_num, by norm_num⟩

theorem exPos : ∀ s ∈ ["a", "p1"], 0 < exD.n s := by
  intro t _; simp only [exD]; split <;> norm_num

example : velocity exK (exD.obs.boost 100 0 0) ["a", "p1"] ["p1"] false = .ok (.total (V3.ofReal 500 0 5)) := by
  rw [C216_velocity exK exD.obs ["a", "p1"] ["p1"] exD (exD.measured _) exPos,
    velocity_single exValid (show "p1" ∈ ["p1", "a"] by simp)]
  simp only [Except.map, Res.map, RData.obs, V3.shift_ofReal]
  simp [exD]; norm_num

example (ux uy uz : ℝ) : ∃ q : ℝ, pdynamic exK (exD.obs.boost ux uy uz) ["a", "p1"] [pyJoin '+' ["p1", "a"]] false =
    .ok (.fin q) := by
  rw [(C216_invariant exK exD.obs ["a", "p1"] _ exD (exD.measured _) exPos ux uy uz "a" "p1").2.1]
  obtain ⟨h, -⟩ := pdynamic_fin exK exD.obs _ _ exValid (by simp) exD (exD.measured _)
    (by intro t _; simp only [exD]; split <;> norm_num)
  exact ⟨_, h⟩

/-- alphas and protons: different mass per charge, so the hypotheses of the violated part are met -/
example (M : ℝ) : ∃ ux uy uz x : ℝ, vdfRatio exK (exD.obs.boost ux uy uz) ["a", "p1"] "p1" "a" = .ok (.fin x) ∧ M < x :=
  C216_vdf_unbounded exK exD.obs ["a", "p1"] "p1" "a" exValid exD (exD.measured _) (by simp [exK]) (by simp [exK])
    (by simp [exD]) (by simp [exD]) (by intro s hs c hc; fin_cases hs <;> fin_cases hc <;> simp [exD])
    (by simp [exD]) (by simp [exK]; norm_num) M

example : ∃ c c' : ℝ, ∃ v v' : V3, velocity exK
      { exD.obs with v := fun s => if s = "a" then ⟨.nan, .nan, .nan⟩ else V3.ofReal 400 0 0 } ["a", "p1"]
      [pyJoin '+' ["p1", "a"]] false = .ok (.total v) ∧ v.x = .fin c ∧ v'.x = .fin c' ∧ c' = c + 50 := by
  obtain ⟨v, v', c, c', h1, h2, -, h4, h5⟩ := C216_missing exK
    { exD.obs with v := fun s => if s = "a" then ⟨.nan, .nan, .nan⟩ else V3.ofReal 400 0 0 } ["a", "p1"] ["p1", "a"] exValid
    (by simp) exD.n (fun _ => 400) (fun s _ => by simp only [exD]; split <;> norm_num) (fun _ _ => rfl) (fun s => s == "a")
    (by intro s hs; fin_cases hs <;> simp [V3.ofReal]) 100 0 0
  refine ⟨c, c', v, v', h1, h2, h4, ?_⟩
  rw [h5]; simp [exD, exK]; norm_num

example : heatFlux exK (exD.obs.rotate quarter) ["a", "p1"] [pyJoin '+' ["p1", "a"]] =
    heatFlux exK exD.obs ["a", "p1"] [pyJoin '+' ["p1", "a"]] :=
  (C217_scalars exK exD.obs ["a", "p1"] _ exD (exD.measured _) exPos quarter "par" "a" "p1" true false true none).2.2.2.2.2.2.2.2.2.1

example : velocity exK (exD.obs.rotate quarter) ["a", "p1"] ["p1"] false = .ok (.total (V3.ofReal 0 400 5)) := by
  rw [(C217_vectors exK exD.obs ["a", "p1"] ["p1"] exD (exD.measured _) exPos quarter "a" "p1").1,
    velocity_single exValid (show "p1" ∈ ["p1", "a"] by simp)]
  simp only [Except.map, Res.map, RData.obs, V3.turn_ofReal]
  simp [exD, quarter]

end SW
