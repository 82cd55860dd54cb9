import Verif.Units
import Verif.Props.PlasmaKinetic
import Mathlib.Analysis.SpecialFunctions.Pow.Real

/-!
# Label units agree with the unit factors (C164), species tables (C165)
-/

namespace SW.Uc

noncomputable section

/-! ### C164 -/

/-- Specification: the SI value of one of each unit printed on a label (`mp`: proton mass in kg, `e`: one eV in J). -/
def siOf (mp e : ℝ) : List (String × ℝ) := [
  ("\\mathrm{\\#}", 1),
  ("\\mathrm{nT}", (10 : ℝ)⁻¹ ^ 9),
  ("\\mathrm{km \\; s^{-1}}", 10 ^ 3),
  ("\\mathrm{pPa}", (10 : ℝ)⁻¹ ^ 12),
  ("\\mathrm{cm}^{-3}", (10 ^ 2) ^ 3),
  ("m_p \\; \\mathrm{cm}^{-3}", mp * (10 ^ 2) ^ 3),
  ("10^5 \\, \\mathrm{K}", 10 ^ 5),
  ("10^{-7} \\mathrm{Hz}", (10 : ℝ)⁻¹ ^ 7),
  ("\\mathrm{mW \\, cm^{-2}}", (10 : ℝ)⁻¹ ^ 3 * (10 ^ 2) ^ 2),
  ("\\mathrm{eV \\, cm^2 \\, m_p^{-5/3}}", e * ((10 : ℝ)⁻¹ ^ 2) ^ 2 * mp ^ (-(5 / 3) : ℝ))]

/-- Specification: what one unit on the label of measurement `m` is worth in SI. -/
def labelSI (mp e : ℝ) (m : String) : Option ℝ := (siOf mp e).lookup (Labels.unitsOf m)

/-- C164: with the default units, the unit on the label of magnetic field, densities, speeds, pressures, temperature, beta, Coulomb
logarithm, collision frequency and collisional age is the one the values are computed in. -/
theorem C164_labels (mp e : ℝ) (u : Units) (hu : u = mkUnits mp e {}) :
    labelSI mp e "b" = some u.b ∧ labelSI mp e "v" = some u.v ∧ labelSI mp e "w" = some u.w ∧ labelSI mp e "dv" = some u.dv ∧
    labelSI mp e "ca" = some u.ca ∧ labelSI mp e "caani" = some u.ca ∧ labelSI mp e "cs" = some u.cs ∧
    labelSI mp e "zp" = some u.v ∧ labelSI mp e "zm" = some u.v ∧
    labelSI mp e "p" = some u.pth ∧ labelSI mp e "pth" = some u.pth ∧ labelSI mp e "pdv" = some u.pth ∧
    labelSI mp e "T" = some u.temperature ∧ labelSI mp e "n" = some u.n ∧ labelSI mp e "dn" = some u.n ∧
    labelSI mp e "rho" = some u.rho ∧ labelSI mp e "beta" = some u.beta ∧ labelSI mp e "lnlambda" = some u.lnlambda ∧
    labelSI mp e "nuc" = some u.nuc ∧ labelSI mp e "nc" = some u.nc := by
  subst hu
  have hb : Labels.unitsOf "b" = "\\mathrm{nT}" := by decide +kernel
  have hkm : ∀ k ∈ ["v", "w", "dv", "ca", "caani", "cs", "zp", "zm"], Labels.unitsOf k = "\\mathrm{km \\; s^{-1}}" := by decide +kernel
  have hp : ∀ k ∈ ["p", "pth", "pdv"], Labels.unitsOf k = "\\mathrm{pPa}" := by decide +kernel
  have hT : Labels.unitsOf "T" = "10^5 \\, \\mathrm{K}" := by decide +kernel
  have hn : ∀ k ∈ ["n", "dn"], Labels.unitsOf k = "\\mathrm{cm}^{-3}" := by decide +kernel
  have hr : Labels.unitsOf "rho" = "m_p \\; \\mathrm{cm}^{-3}" := by decide +kernel
  have hd : ∀ k ∈ ["beta", "lnlambda", "nc"], Labels.unitsOf k = "\\mathrm{\\#}" := by decide +kernel
  have hc : Labels.unitsOf "nuc" = "10^{-7} \\mathrm{Hz}" := by decide +kernel
  simp only [List.forall_mem_cons] at hkm hp hn hd
  obtain ⟨h1, h2, h3, h4, h5, h6, h7, h8, -⟩ := hkm
  obtain ⟨p1, p2, p3, -⟩ := hp
  obtain ⟨n1, n2, -⟩ := hn
  obtain ⟨d1, d2, d3, -⟩ := hd
  have s1 : (siOf mp e).lookup "\\mathrm{nT}" = some ((10 : ℝ)⁻¹ ^ 9) := by simp [siOf, List.lookup]
  have s2 : (siOf mp e).lookup "\\mathrm{km \\; s^{-1}}" = some (10 ^ 3) := by simp [siOf, List.lookup]
  have s3 : (siOf mp e).lookup "\\mathrm{pPa}" = some ((10 : ℝ)⁻¹ ^ 12) := by simp [siOf, List.lookup]
  have s4 : (siOf mp e).lookup "\\mathrm{cm}^{-3}" = some ((10 ^ 2) ^ 3) := by simp [siOf, List.lookup]
  have s5 : (siOf mp e).lookup "m_p \\; \\mathrm{cm}^{-3}" = some (mp * (10 ^ 2) ^ 3) := by simp [siOf, List.lookup]
  have s6 : (siOf mp e).lookup "10^5 \\, \\mathrm{K}" = some (10 ^ 5) := by simp [siOf, List.lookup]
  have s7 : (siOf mp e).lookup "10^{-7} \\mathrm{Hz}" = some ((10 : ℝ)⁻¹ ^ 7) := by simp [siOf, List.lookup]
  have s8 : (siOf mp e).lookup "\\mathrm{\\#}" = some 1 := by simp [siOf, List.lookup]
  unfold labelSI
  rw [hb, h1, h2, h3, h4, h5, h6, h7, h8, p1, p2, p3, hT, n1, n2, hr, d1, d2, d3, hc, s1, s2, s3, s4, s5, s6, s7, s8]
  simp only [mkUnits, Option.getD_none, Option.some.injEq]
  norm_num
  ring

/-- C164: factors that follow from others do so whatever is given: every speed has the factor of `v`, `b` that of `bfield`, the mass
density that of `n` times the proton mass; what is not given keeps its default. -/
theorem C164_derived (mp e : ℝ) (g : Given) (u : Units) (hu : u = mkUnits mp e g) :
    u.b = u.bfield ∧ u.w = u.v ∧ u.dv = u.v ∧ u.ca = u.v ∧ u.cs = u.v ∧ u.cfms = u.v ∧ u.rho = u.n * mp ∧
    (∀ x, g.v = some x → u.v = x) ∧ (g.v = none → u.v = 1000) ∧ (∀ x, g.n = some x → u.n = x) ∧ (g.n = none → u.n = 10 ^ 6) ∧
    (∀ x, g.bfield = some x → u.bfield = x) ∧ (g.bfield = none → u.bfield = 10⁻¹ ^ 9) := by
  subst hu
  refine ⟨rfl, rfl, rfl, rfl, rfl, rfl, rfl, ?_, ?_, ?_, ?_, ?_, ?_⟩ <;> intros <;> simp_all [mkUnits] <;> norm_num

/-- C164 (violated): a heat flux is labelled in milliwatts per square centimetre, but the number returned times that unit is 10⁸ times the
heat flux. -/
theorem C164_heat_flux (mp e : ℝ) (K : Const) (hK : Uses K (mkUnits mp e {})) (o : Obs) (ions ps : List String)
    (h : Valid ions ps) (hl : 2 ≤ ps.length) (d : RData) (hm : Measured o ps d) (hn : ∀ s ∈ ps, 0 < d.n s)
    (hB : (d.bx, d.by_, d.bz) ≠ (0, 0, 0)) :
    ∃ (cx cy cz : ℝ) (q : String → ℝ) (unit : ℝ),
      velocity K o ions [pyJoin '+' ps] false = .ok (.total (V3.ofReal cx cy cz)) ∧
      heatFlux K o ions ps = .ok (.each ((pySorted ps).map fun s => (s, .fin (q s)))) ∧
      labelSI mp e "q" = some unit ∧
      ∀ s ∈ ps, ∃ u : ℝ, u = ((d.vx s - cx) * d.bx + (d.vy s - cy) * d.by_ + (d.vz s - cz) * d.bz) /
          Real.sqrt (d.bx ^ 2 + d.by_ ^ 2 + d.bz ^ 2) ∧
        q s * unit = 10 ^ 8 * ((d.n s * 10 ^ 6 * (K.mInMp s * mp)) * ((u * 1000) ^ 3 + 3 / 2 * (u * 1000) * (d.w s "par" * 1000) ^ 2)) := by
  obtain ⟨cx, cy, cz, q, h1, h2, -, h4⟩ := C26_sum K o ions ps h hl d hm hn hB
  have hq : Labels.unitsOf "q" = "\\mathrm{mW \\, cm^{-2}}" := by decide +kernel
  refine ⟨cx, cy, cz, q, 10, h1, h2, ?_, ?_⟩
  · unfold labelSI; rw [hq]; simp [siOf, List.lookup]; norm_num
  · intro s hs
    obtain ⟨u, hu, e1⟩ := h4 s hs
    refine ⟨u, hu, ?_⟩
    rw [hK.qpar, hK.rho, hK.v] at e1
    simp only [mkUnits, Option.getD_none] at e1
    norm_num at e1
    have : q s = 10000000 * (q s * (1 / 10000000)) := by ring
    rw [this, e1]; ring

/-- C164 (violated): a specific entropy is labelled in eV cm² m_p^(-5/3), but the number returned is between 10% and 12% of the value in
that unit: the conversion factor is inverted and the proton mass left out. -/
theorem C164_entropy (mp e : ℝ) (hmp : 1.67e-27 ≤ mp) (hmp' : mp ≤ 1.68e-27) (he : e = 1.602176634e-19) (K : Const)
    (hK : Uses K (mkUnits mp e {})) (o : Obs) (ions ps : List String) (h : Valid ions ps) (r p : ℝ) (hr0 : 0 < r) (hp0 : 0 < p)
    (hr : massDensity K o ions [pyJoin '+' ps] = .ok (.total (.fin r)))
    (hp : pth K o ions "scalar" [pyJoin '+' ps] = .ok (.total (.fin p))) :
    ∃ S unit si : ℝ, specificEntropy K o ions [pyJoin '+' ps] = .ok (.total (.fin S)) ∧ labelSI mp e "S" = some unit ∧
      si = (p * 10⁻¹ ^ 12) * (r * 10 ^ 6 * mp) ^ (-(5 / 3) : ℝ) ∧ 0.10 * si < S * unit ∧ S * unit < 0.12 * si := by
  obtain ⟨S, hS, hv⟩ := C28_value K o ions ps h r p hr0 hr hp
  have hmp0 : 0 < mp := by norm_num at hmp; linarith
  have he0 : 0 < e := by rw [he]; norm_num
  have hS' : Labels.unitsOf "S" = "\\mathrm{eV \\, cm^2 \\, m_p^{-5/3}}" := by decide +kernel
  refine ⟨S, e * ((10 : ℝ)⁻¹ ^ 2) ^ 2 * mp ^ (-(5 / 3) : ℝ), _, hS, ?_, rfl, ?_⟩
  · unfold labelSI; rw [hS']; simp [siOf, List.lookup]
  · rw [hK.entropy, hK.pth, hK.rho, hK.gamma] at hv
    have hg : (polytropic.lookup "scalar").getD 0 = 5 / 3 := by simp [polytropic, List.lookup]
    rw [hg] at hv
    simp only [mkUnits, Option.getD_none] at hv
    obtain ⟨R, hR⟩ : ∃ R, R = (r * 10 ^ 6 * mp) ^ (-(5 / 3) : ℝ) := ⟨_, rfl⟩
    have hR0 : 0 < R := by rw [hR]; positivity
    have hRe : (r * (1e6 * mp)) ^ (-(5 / 3) : ℝ) = R := by rw [hR]; congr 1; norm_num; ring
    rw [hRe] at hv
    rw [← hR]
    obtain ⟨M, hM⟩ : ∃ M, M = mp ^ (-(5 / 3) : ℝ) := ⟨_, rfl⟩
    have hM0 : 0 < M := by rw [hM]; positivity
    have hM3 : M ^ 3 * mp ^ 5 = 1 := by
      rw [hM, ← Real.rpow_natCast, ← Real.rpow_mul hmp0.le, ← Real.rpow_natCast mp 5, ← Real.rpow_add hmp0]
      norm_num
    rw [← hM]
    have hSv : S = p * 10⁻¹ ^ 12 * R * (e / 10 ^ 4) := by
      have : S * (1e4 / e) * (e / 10 ^ 4) = S := by norm_num; field_simp
      rw [← this, hv]; norm_num
    have hx : S * (e * ((10 : ℝ)⁻¹ ^ 2) ^ 2 * M) = (p * 10⁻¹ ^ 12 * R) * (e ^ 2 * 10⁻¹ ^ 8 * M) := by
      rw [hSv]; norm_num; ring
    rw [hx]
    obtain ⟨si, hsi⟩ : ∃ si, si = p * 10⁻¹ ^ 12 * R := ⟨_, rfl⟩
    have hsi0 : 0 < si := by rw [hsi]; positivity
    rw [← hsi]
    have hcube : (e ^ 2 * 10⁻¹ ^ 8 * M) ^ 3 * mp ^ 5 = e ^ 6 * 10⁻¹ ^ 24 := by
      calc (e ^ 2 * 10⁻¹ ^ 8 * M) ^ 3 * mp ^ 5 = e ^ 6 * 10⁻¹ ^ 24 * (M ^ 3 * mp ^ 5) := by ring
        _ = _ := by rw [hM3, mul_one]
    obtain ⟨x, hxd⟩ : ∃ x, x = e ^ 2 * 10⁻¹ ^ 8 * M := ⟨_, rfl⟩
    rw [← hxd] at hcube ⊢
    have hx0 : 0 < x := by rw [hxd]; positivity
    have hlo : (1.67e-27 : ℝ) ^ 5 ≤ mp ^ 5 := pow_le_pow_left₀ (by norm_num) hmp 5
    have hhi : mp ^ 5 ≤ (1.68e-27 : ℝ) ^ 5 := pow_le_pow_left₀ hmp0.le hmp' 5
    have h5 : 0 < mp ^ 5 := by positivity
    have hc1 : (0.10 : ℝ) < x := by
      by_contra hcon
      have hle : x ≤ 0.10 := not_lt.mp hcon
      have h3 : x ^ 3 ≤ 0.10 ^ 3 := pow_le_pow_left₀ hx0.le hle 3
      have : x ^ 3 * mp ^ 5 ≤ 0.10 ^ 3 * (1.68e-27 : ℝ) ^ 5 := mul_le_mul h3 hhi h5.le (by norm_num)
      rw [hcube, he] at this
      norm_num at this
    have hc2 : x < 0.12 := by
      by_contra hcon
      have hle : 0.12 ≤ x := not_lt.mp hcon
      have h3 : 0.12 ^ 3 ≤ x ^ 3 := pow_le_pow_left₀ (by norm_num) hle 3
      have : 0.12 ^ 3 * (1.67e-27 : ℝ) ^ 5 ≤ x ^ 3 * mp ^ 5 := mul_le_mul h3 hlo (by norm_num) (by positivity)
      rw [hcube, he] at this
      norm_num at this
    constructor
    · rw [mul_comm]; exact mul_lt_mul_of_pos_left hc1 hsi0
    · rw [mul_comm 0.12]; exact mul_lt_mul_of_pos_left hc2 hsi0

/-- A plasma with the default units exists: the hypotheses of the two theorems above can be met. -/
example (mp e : ℝ) (hmp : 0 < mp) (he : 0 < e) : ∃ K : Const, Uses K (mkUnits mp e {}) ∧ K.mInMp = exK.mInMp := by
  refine ⟨{ exK with
    uB := 1e-9, uV := 1e3, uPth := 1e-12, uT := 1e5, uN := 1e6, uRho := 1e6 * mp, uNuc := 1e-7, uQpar := 1e-7, uS := 1e4 / e,
    uB_pos := by norm_num, uV_pos := by norm_num, uPth_pos := by norm_num, uT_pos := by norm_num, uN_pos := by norm_num,
    uRho_pos := by positivity, uNuc_pos := by norm_num, uQpar_pos := by norm_num, uS_pos := by positivity }, ?_, rfl⟩
  constructor <;> simp [mkUnits, polytropic, List.lookup, exK]

/-! ### C165 -/

/-- Specification: the species names and what particle each is. -/
inductive Particle where
  | electron | proton | alpha
  deriving DecidableEq

def particles : List (String × Particle) := [
  ("e", .electron), ("p", .proton), ("p1", .proton), ("p2", .proton), ("pm", .proton), ("p_bimax", .proton), ("a", .alpha),
  ("a1", .alpha), ("a2", .alpha), ("a_bimax", .alpha)]

/-- Specification: number of elementary charges. -/
def Particle.z : Particle → ℝ
  | .electron => -1
  | .proton => 1
  | .alpha => 2

/-- C165: the five tables know the same ten species, and give each the charge number, charge and mass (in kg, in proton masses, in atomic
mass units) of its particle. -/
theorem C165_tables (c : Codata) (s : String) :
    (∀ q, (s, q) ∈ particles →
      (chargeStates.lookup s = some q.z ∧ (charges c).lookup s = some (q.z * c.e)) ∧
      (masses c).lookup s = some (match q with | .electron => c.me | .proton => c.mp | .alpha => c.ma) ∧
      (mInMp c).lookup s = some (match q with | .electron => c.eInMp | .proton => 1 | .alpha => c.aInMp) ∧
      (mAmu c).lookup s = some (match q with | .electron => c.uE | .proton => c.uP | .alpha => c.uA)) ∧
    ((∀ q, (s, q) ∉ particles) → chargeStates.lookup s = none ∧ (charges c).lookup s = none ∧ (masses c).lookup s = none ∧
      (mInMp c).lookup s = none ∧ (mAmu c).lookup s = none) := by
  constructor
  · intro q hq
    simp only [particles, List.mem_cons, List.not_mem_nil, or_false, Prod.mk.injEq] at hq
    rcases hq with ⟨rfl, rfl⟩ | ⟨rfl, rfl⟩ | ⟨rfl, rfl⟩ | ⟨rfl, rfl⟩ | ⟨rfl, rfl⟩ | ⟨rfl, rfl⟩ | ⟨rfl, rfl⟩ | ⟨rfl, rfl⟩ | ⟨rfl, rfl⟩ | ⟨rfl, rfl⟩ <;>
      simp [chargeStates, charges, masses, mInMp, mAmu, List.lookup, Particle.z]
  · intro h
    have hn : ∀ k ∈ particles.map Prod.fst, s ≠ k := by
      intro k hk he
      obtain ⟨x, hx, rfl⟩ := List.mem_map.mp hk
      exact h x.2 (by rw [he]; exact hx)
    simp only [particles, List.map_cons, List.map_nil, List.forall_mem_cons] at hn
    obtain ⟨h1, h2, h3, h4, h5, h6, h7, h8, h9, h10, -⟩ := hn
    have key : ∀ l : List (String × ℝ), (∀ x ∈ l, s ≠ x.1) → l.lookup s = none := by
      intro l
      induction l with
      | nil => intro _; rfl
      | cons x l ih =>
        intro hx
        rw [List.lookup, show (s == x.1) = false from by simpa using hx x (by simp)]
        exact ih (fun y hy => hx y (by simp [hy]))
    refine ⟨key _ ?_, key _ ?_, key _ ?_, key _ ?_, key _ ?_⟩ <;>
      simp [chargeStates, charges, masses, mInMp, mAmu, h1, h2, h3, h4, h5, h6, h7, h8, h9, h10]

/-- C165: the three polytropic indices are those of an ideal gas, (f + 2) / f, with 1 (parallel), 2 (perpendicular) and 3 (scalar) degrees of freedom. -/
theorem C165_polytropic : ∀ x ∈ [("par", 1), ("per", 2), ("scalar", (3 : ℝ))], polytropic.lookup x.1 = some ((x.2 + 2) / x.2) := by
  simp [polytropic, List.lookup]
  norm_num

end
end SW.Uc
