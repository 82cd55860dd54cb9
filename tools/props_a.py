# Source of properties.jsonl / MANIFEST.json / the DESIGN.md table (run tools/gen.py).
# P(id, title, statement, quantifier, why_tests_cant, anchors, design)
PROPS = []
def P(i, title, statement, quantifier, why, anchors, design):
    PROPS.append(dict(id=i, title=title, statement=statement, quantifier=quantifier,
                      why_tests_cant=why, anchors=anchors, design=design))

B="solarwindpy/core/base.py"; PL="solarwindpy/core/plasma.py"; V="solarwindpy/core/vector.py"
T="solarwindpy/core/tensor.py"; I="solarwindpy/core/ions.py"; SC="solarwindpy/core/spacecraft.py"
U="solarwindpy/core/units_constants.py"; AB="solarwindpy/core/abundances.py"; AT="solarwindpy/core/alfvenic_turbulence.py"

# ---- species handling
P("C01","Species arguments are canonicalised",
 "Every Plasma/Ion query method turns its species arguments into the same tuple whatever order they are written in: for a single string the '+'-separated parts, for several strings the strings themselves, sorted and with nothing added or lost; the call fails with ValueError exactly when some string contains a comma, or contains '+' while more than one string is passed.",
 "all argument lists of all strings","the argument space is unbounded; tests sample a handful of species names",
 [B+":Base._conform_species"],"string-list model of _conform_species; spec = sortedness + permutation + iff on the error; induction on lists via mergeSort lemmas")
P("C02","Species availability check",
 "A query naming only species the plasma holds passes the availability check and returns the canonical tuple; a query naming at least one non-empty species the plasma does not hold raises ValueError. (The empty string is the one unavailable name that is NOT rejected: the code tests `unavailable.any()`, which is False for [''].)",
 "all plasmas, all species arguments","needs every species set and every argument tuple",
 [PL+":Plasma._chk_species"],"model over available-species list; positive iff for non-empty names and a proved counterexample for the empty name")
P("C03","Setting the species of a plasma",
 "Plasma construction stores the given species sorted, rejects an empty list with ValueError and any '+' with an assertion, and a single comma-separated string 'a,p1' denotes the same plasma species as passing the pieces separately.",
 "all species lists","unbounded strings and lists",[B+":Base._clean_species_for_setting",PL+":Plasma._set_species",PL+":Plasma._set_ions"],
 "list-of-char-list model of the two setters; theorem about pieces and order")
P("C04","drop_species keeps exactly the rest",
 "drop_species(S) fails with ValueError iff no species would remain; otherwise the new plasma's species are the old ones not in S, its columns are exactly the old columns whose species label is empty or remaining, every kept column is unchanged at every row, auxiliary columns are filtered the same way, and dropping twice equals dropping the union.",
 "all plasmas (any columns, rows, aux), all drop lists","quantifies over all column sets and all subsets",
 [PL+":Plasma.drop_species"],"frame model: list of columns plus row function; filter lemmas")
# ---- plasma data
P("C05","set_data keeps exactly the plasma columns",
 "After set_data the stored columns are exactly: the supplied columns with measurement in {b,n,v,w}, component in {'',x,y,z,per,par} and species in the plasma's species or '', each once and with the supplied values (first occurrence of a duplicate), plus one (w,scalar,s) column for every s having a kept w par or per column; nothing else.",
 "all input frames","column sets are unbounded",[PL+":Plasma.set_data"],"frame model of the filter/dedup/concat pipeline; membership iff")
P("C06","Scalar thermal speed is the right average of the measured components",
 "For every species and row with both w_par and w_per measured, the stored scalar thermal speed is sqrt((w_par^2+2 w_per^2)/3), lies between them when both are >= 0, and equals them iff they are equal (given non-negative).",
 "all rows, all measured values","real-valued inputs",[PL+":Plasma.set_data"],"exact-real float model; nlinarith/sqrt lemmas")
P("C07","Missing thermal-speed components must not produce data (violated)",
 "A row in which a thermal-speed component is NaN should have a NaN scalar thermal speed. The code instead fabricates a finite number: with w_par NaN it stores sqrt(2/3)*|w_per|, with both NaN it stores 0.",
 "all rows with a missing component","the groupby-sum NaN behaviour must be known for every row",[PL+":Plasma.set_data"],
 "NaN-skipping sum in the float model; theorem giving the fabricated value, so the negation of the desired property holds for every such row")
P("C08","Save then load is the identity on plasma data",
 "Writing a plasma to disk drops only the scalar thermal speed, and loading the file back recomputes it, so the loaded plasma has the same species, the same columns and the same values as the saved one (and the same auxiliary columns); start/stop loading keeps exactly the rows whose time lies in the closed interval.",
 "all plasmas, all time windows","round trip over unbounded data",[PL+":Plasma.save",PL+":Plasma.load_from_file",PL+":Plasma.set_data"],
 "store = saved frame; load = set_data of the filtered frame; idempotence of set_data's filter")
P("C09","Attaching auxiliary/spacecraft data is validated and atomic",
 "set_auxiliary_data accepts a frame iff its time index equals the plasma's and no column duplicates a plasma column; set_spacecraft accepts iff the index matches; a rejected call leaves the previously attached object in place, None always detaches.",
 "all sequences of set calls","state after every history of failing and succeeding calls",[PL+":Plasma.set_auxiliary_data",PL+":Plasma.set_spacecraft"],
 "state machine with exceptions as values; invariant by induction over call histories")
# ---- plasma physics
P("C10","Total number density",
 "number_density of a '+'-joined species string is the sum of the single-species densities at every row, independent of the order in which the species are written; with skipna=False it is NaN as soon as one member is NaN, with skipna=True NaN members count as zero; with several arguments no summing takes place.",
 "all plasmas, species strings, rows","sum over unbounded species lists with NaN",[PL+":Plasma.number_density",I+":Ion.number_density"],"row model over IEEE-with-exact-reals floats; induction on species list")
P("C11","Mass density",
 "mass_density is the mass-number-weighted number density; for pure protons it equals the number density; the total of a '+' string is order independent and additive over disjoint species sets.",
 "all plasmas, species, rows","unbounded sums",[PL+":Plasma.mass_density",I+":Ion.mass_density",U+":Constants"],"same row model")
P("C12","Centre-of-mass velocity carries the total momentum",
 "For species with finite positive densities and finite velocities, velocity('s0+s1+...') satisfies sum_i rho_i (v_i - v_com) = 0 in every component, lies componentwise between the smallest and largest species velocity, and for one species is that species' velocity; order of names is irrelevant.",
 "all species lists, rows, components","sums over unbounded species lists",[PL+":Plasma.velocity"],"induction over species list in reals")
P("C13","Missing velocities bias the centre of mass (violated)",
 "If one species' velocity component is NaN while its density is measured, the centre-of-mass velocity should be NaN or ignore that species. The code drops the momentum but keeps the mass, returning v_1*rho_1/(rho_1+rho_2).",
 "all such rows","needs the NaN semantics of groupby-sum for all values",[PL+":Plasma.velocity"],"closed form proved; differs from both acceptable answers")
P("C14","Differential flow is antisymmetric",
 "dv(a,b) = -dv(b,a) at every row and component and therefore has the same magnitude; dv(a,b)+dv(b,c)=dv(a,c); requesting dv of a string with itself raises NotImplementedError, but 'a+p1' against 'p1+a' is not recognised as the same species and yields zero.",
 "all species strings and rows","universally quantified over species strings",[PL+":Plasma.dv"],"row model with NaN: negation commutes with NaN; the accepted self-comparison as a proved witness")
P("C15","Thermal pressure and temperature are additive and consistent",
 "pth of a '+' string is the sum of single-species pressures in each of par, per, scalar; for every species and row with measured components p_scalar = (p_par + 2 p_per)/3; the same for temperature; pressure/temperature are >= 0 for non-negative density.",
 "all plasmas, species, rows","real-valued, unbounded sums",[PL+":Plasma.pth",PL+":Plasma.temperature",I+":Ion.pth",I+":Ion.temperature"],"row model; sqrt elimination")
P("C16","Plasma beta",
 "beta = 2 mu0 p / B^2 in each component, is additive over species, and equals (w/C_A)^2 for a single species (units cancel); it is NaN whenever a magnetic field component is NaN.",
 "all plasmas, species, rows","real-valued identity through unit factors",[PL+":Plasma.beta",PL+":Plasma.ca"],"row model with symbolic unit factors and their positivity")
P("C17","Anisotropy",
 "anisotropy(s) is p_per/p_par; it is > 1, = 1, < 1 exactly as w_per >, =, < w_par for a single species with positive density; for one species it does not depend on the density.",
 "all rows","real-valued",[PL+":Plasma.anisotropy",I+":Ion.anisotropy"],"row model")
P("C18","Dynamic (drift) pressure",
 "pdynamic is >= 0, is zero iff all species with positive density co-move, is invariant under a common velocity shift (Galilean), and for two species equals 1/2 * rho1*rho2/(rho1+rho2) * |v1-v2|^2; one species raises ValueError.",
 "all species lists, velocities, densities","sums over unbounded species",[PL+":Plasma.pdynamic"],"reals; Koenig-type identity by field_simp/ring, non-negativity by induction")
P("C19","Dynamic pressure with m/q projection of three or more species crashes (violated)",
 "pdynamic(..., project_m2q=True) should either work or raise a documented error for every species list; with three or more distinct species it falls through both branches and raises UnboundLocalError.",
 "all species lists of length >= 3","control-flow hole for every such call",[PL+":Plasma.pdynamic"],"control-flow model with unbound variable as an error value")
P("C20","Alfven and sound speed",
 "C_A^2 mu0 rho = B^2 and cs^2 rho = gamma p in SI; consequently cs^2/C_A^2 = (gamma/2) beta for the same species; adding a species with positive density strictly lowers C_A when B>0.",
 "all plasmas, rows","real identity across three methods",[PL+":Plasma.ca",PL+":Plasma.sound_speed",PL+":Plasma.beta"],"row model")
P("C21","Anisotropy factor",
 "afsq(s0+s1+...) = 1 + sum_i (afsq(s_i) - 1); afsq = 1 iff the total pressure is isotropic; afsq = 1 + (beta_per - beta_par)/2; caani = C_A sqrt(afsq) and equals C_A for isotropic pressure.",
 "all species lists and rows","documented identity over unbounded species lists",[PL+":Plasma.afsq",PL+":Plasma.caani",PL+":Plasma.beta"],"row model, induction on species")
P("C22","Coulomb logarithm and collision rate are symmetric where they must be",
 "lnlambda(a,b) = lnlambda(b,a) at every row; the momentum exchange is balanced, rho_a nu_ab = rho_b nu_ba; the two-species rate nuc(a,b) equals nuc(b,a).",
 "all species pairs and rows","real-valued, transcendental terms",[PL+":Plasma.lnlambda",PL+":Plasma.nuc"],"row model with erf as an uninterpreted function")
P("C23","Coulomb number",
 "nc(a,b) raises ValueError iff the plasma has no spacecraft (or an argument is a sum); otherwise nc = nuc * r / |v_com|, and is symmetric in (a,b).",
 "all plasmas, pairs","needs all states",[PL+":Plasma.nc"],"row model + option spacecraft")
P("C24","VDF ratio is the log ratio of two bi-Maxwellians",
 "For every beam/core pair of proton populations with positive density and thermal speeds and non-zero B, vdf_ratio is the natural log of the beam bi-Maxwellian over the core bi-Maxwellian, both evaluated at the beam velocity.",
 "all rows","real analysis identity",[PL+":Plasma.vdf_ratio"],"independent spec: bi-Maxwellian density; log/exp algebra")
P("C25","Estimated electrons are quasi-neutral and current-free",
 "estimate_electrons returns n_e = sum q_i n_i and v_e with n_e v_e = sum q_i n_i v_i (zero net charge and current) on every row with n_e != 0, NaN on rows with n_e = 0, and T_e such that the electron pressure equals the proton pressure; it raises NotImplementedError iff 'e' is present and ValueError iff not exactly one of 'p','p1' is; in-place use adds exactly the species 'e'.",
 "all plasmas and rows","sums over unbounded species, control flow over all species sets",[PL+":Plasma.estimate_electrons"],"row model and species-set control-flow model")
P("C26","Heat flux",
 "heat_flux is zero when all species co-move, odd under reversal of B-parallel drifts, the '+' form is the sum of the per-species form, and a single species raises ValueError.",
 "all species lists","unbounded sums",[PL+":Plasma.heat_flux"],"row model")
P("C27","Kinetic energy flux is unusable (violated)",
 "kinetic_energy_flux should return a value for every available species; every call with valid species raises AttributeError because the unit it needs does not exist.",
 "all plasmas and species","holds for every call",[I+":Ion.kinetic_energy_flux",U+":Units",PL+":Plasma.kinetic_energy_flux"],"units table as a finite map; lookup fails")
P("C28","Specific entropy and sound speed are consistent",
 "specific_entropy = p rho^(-5/3); it is unchanged by adiabatic compression (rho -> k rho, p -> k^(5/3) p) for every k>0.",
 "all positive rho, p, k","real-valued",[PL+":Plasma.specific_entropy",I+":Ion.specific_entropy"],"Real.rpow")
# ---- vector etc
P("C29","Vector magnitude and spherical coordinates",
 "mag^2 = x^2+y^2+z^2, rho^2 = x^2+y^2, mag is NaN iff a component is NaN; (x,y) = rho (cos lon, sin lon).",
 "all vectors","real-valued",[V+":Vector.mag",V+":Vector.rho",V+":Vector.lon"],"floats + Complex.arg for arctan2")
P("C30","Latitude and colatitude are exchanged (violated)",
 "colatitude should be the angle from +z (0 at the pole) and latitude the angle from the x-y plane. The implementation returns arctan2(z, rho) as colatitude and arctan2(rho, z) as latitude, i.e. exactly the other one, for every vector.",
 "all vectors","must hold for every vector",[V+":Vector.colat",V+":Vector.lat"],"arctan2 via Complex.arg; show the returned 'colatitude' c satisfies z = r sin c and equals the true colatitude only on the 45-degree cone")
P("C31","Unit vectors and projections",
 "A unit vector of a non-zero vector has magnitude 1; project(v,b) returns (par, per) with par = v.b/|b|, per >= 0, par^2+per^2=|v|^2 and is unchanged when b is scaled by a positive factor.",
 "all vectors v, all non-zero b","real-valued",[V+":Vector.unit_vector",V+":Vector.project"],"reals")
P("C32","cos_theta is a cosine",
 "cos_theta(v,b) lies in [-1,1] for all non-zero v,b, is symmetric, and is +1/-1 iff v is a positive/negative multiple of b.",
 "all non-zero vectors","Cauchy-Schwarz over reals",[V+":Vector.cos_theta"],"reals, Lagrange identity")
P("C33","Calling a vector or tensor by component always fails (violated)",
 "vector('x') / tensor('per') should return the component; the call resolves through a hook that does not exist and raises AttributeError for every argument.",
 "all arguments","every call",[V+":Vector.__call__",T+":Tensor.__call__"],"attribute lookup model")
P("C34","Distance to the Sun",
 "In HCI the distance is |position| * R_sun; in GSE it is the norm of (AU - x Re, y Re, z Re): 1 AU at Earth and within |pos|*Re of 1 AU always; frames and names other than GSE/HCI and WIND/PSP (any letter case) raise NotImplementedError.",
 "all positions, all frame/name strings","real-valued; strings",[SC+":Spacecraft.distance2sun",SC+":Spacecraft.set_frame_name"],"reals + triangle inequality")
P("C35","Abundance ratio",
 "abundance_ratio(X,Y) = 10^(A_X - A_Y), is reciprocal under exchange, multiplicative along chains, and its uncertainty is ratio*ln10*sqrt(sx^2+sy^2) with missing uncertainties as zero -- except that for denominator 'H' a missing uncertainty is propagated as NaN.",
 "all tables and elements","real-valued; all table contents",[AB+":ReferenceAbundances.abundance_ratio"],"reals + float NaN")
# ---- turbulence
P("C36","Elsasser energies obey their identities",
 "z+ - z- = 2b, z+ + z- = 2v, e+ + e- = 2(ev+eb), e+ - e- = 4 Hc, etot = (e+ + e-)/2 and eres = ev - eb, at every row with measured fields.",
 "all velocity/field fluctuations","real identity",[AT+":AlfvenicTurbulence"],"floats, ring")
P("C37","Normalised turbulence quantities are bounded and consistent",
 "sigma_c and sigma_r lie in [-1,1], sigma_c^2 + sigma_r^2 <= 1, sigma_c = (1-rE)/(1+rE), sigma_r = (rA-1)/(rA+1), whenever etot > 0.",
 "all non-zero fluctuations","real inequality",[AT+":AlfvenicTurbulence.sigma_c",AT+":AlfvenicTurbulence.sigma_r"],"Cauchy-Schwarz")
P("C38","Turbulence species strings are normalised",
 "The species attribute accepts at most one comma, sorts each '+'-joined side, and normalising twice changes nothing; two commas raise ValueError.",
 "all strings","unbounded strings",[AT+":AlfvenicTurbulence._clean_species_for_setting"],"string-list model; idempotence")
P("C39","Fluctuations are mean-free",
 "The stored fluctuations are the measurement minus the rolling mean: over a window covering all samples they sum to zero, a constant series gives zero, and adding a constant to the input changes nothing.",
 "all time series and windows","unbounded series",[AT+":AlfvenicTurbulence.set_data"],"list model of rolling mean with trailing window and min_periods")
