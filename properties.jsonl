{"id": "C01", "title": "Species arguments are canonicalised", "statement": "Every Plasma/Ion query method turns its species arguments into the same tuple whatever order they are written in: for a single string the '+'-separated parts, for several strings the strings themselves, sorted and with nothing added or lost; the call fails with ValueError exactly when some string contains a comma, or contains '+' while more than one string is passed.", "quantifier": "all argument lists of all strings", "why_tests_cant": "the argument space is unbounded; tests sample a handful of species names", "anchors": ["solarwindpy/core/base.py:Base._conform_species"]}
{"id": "C02", "title": "Species availability check", "statement": "A query naming only species the plasma holds passes the availability check and returns the canonical tuple; a query naming at least one non-empty species the plasma does not hold raises ValueError. (The empty string is the one unavailable name that is NOT rejected: the code tests `unavailable.any()`, which is False for [''].)", "quantifier": "all plasmas, all species arguments", "why_tests_cant": "needs every species set and every argument tuple", "anchors": ["solarwindpy/core/plasma.py:Plasma._chk_species"]}
{"id": "C03", "title": "Setting the species of a plasma", "statement": "Plasma construction stores the given species sorted with nothing added or lost, rejects an empty list with ValueError and any '+' with an assertion. A single comma-separated string 'a,p1' is NOT the same as passing the pieces: the pieces are computed and thrown away, so construction fails.", "quantifier": "all species lists", "why_tests_cant": "unbounded strings and lists", "anchors": ["solarwindpy/core/base.py:Base._clean_species_for_setting", "solarwindpy/core/plasma.py:Plasma._set_species", "solarwindpy/core/plasma.py:Plasma._set_ions"]}
{"id": "C04", "title": "drop_species keeps exactly the rest", "statement": "drop_species(S) fails with ValueError iff no species would remain; otherwise the new plasma's species are the old ones not in S, its columns are exactly the old columns whose species label is empty or remaining, every kept column is unchanged at every row, auxiliary columns are filtered the same way, and dropping twice equals dropping the union.", "quantifier": "all plasmas (any columns, rows, aux), all drop lists", "why_tests_cant": "quantifies over all column sets and all subsets", "anchors": ["solarwindpy/core/plasma.py:Plasma.drop_species"]}
{"id": "C05", "title": "set_data keeps exactly the plasma columns", "statement": "After set_data the stored columns are exactly: the supplied columns with measurement in {b,n,v,w}, component in {'',x,y,z,per,par} and species in the plasma's species or '', each once and with the supplied values (first occurrence of a duplicate), plus one (w,scalar,s) column for every s having a kept w par or per column; nothing else.", "quantifier": "all input frames", "why_tests_cant": "column sets are unbounded", "anchors": ["solarwindpy/core/plasma.py:Plasma.set_data"]}
{"id": "C06", "title": "Scalar thermal speed is the right average of the measured components", "statement": "For every species and row with both w_par and w_per measured, the stored scalar thermal speed is sqrt((w_par^2+2 w_per^2)/3), lies between them when both are >= 0, and equals them iff they are equal (given non-negative).", "quantifier": "all rows, all measured values", "why_tests_cant": "real-valued inputs", "anchors": ["solarwindpy/core/plasma.py:Plasma.set_data"]}
{"id": "C07", "title": "Missing thermal-speed components must not produce data (violated)", "statement": "A row in which a thermal-speed component is NaN should have a NaN scalar thermal speed. The code instead fabricates a finite number: with w_par NaN it stores sqrt(2/3)*|w_per|, with both NaN it stores 0.", "quantifier": "all rows with a missing component", "why_tests_cant": "the groupby-sum NaN behaviour must be known for every row", "anchors": ["solarwindpy/core/plasma.py:Plasma.set_data"]}
{"id": "C08", "title": "Save then load is the identity on plasma data", "statement": "Writing a plasma to disk drops only the scalar thermal speed, and loading the file back recomputes it, so the loaded plasma has the same species, the same columns and the same values as the saved one (and the same auxiliary columns); start/stop loading keeps exactly the rows whose time lies in the closed interval.", "quantifier": "all plasmas, all time windows", "why_tests_cant": "round trip over unbounded data", "anchors": ["solarwindpy/core/plasma.py:Plasma.save", "solarwindpy/core/plasma.py:Plasma.load_from_file", "solarwindpy/core/plasma.py:Plasma.set_data"]}
{"id": "C09", "title": "Attaching auxiliary/spacecraft data is validated and atomic", "statement": "set_auxiliary_data accepts a frame iff its time index equals the plasma's and no column duplicates a plasma column; set_spacecraft accepts iff the index matches; a rejected call leaves the previously attached object in place, None always detaches.", "quantifier": "all sequences of set calls", "why_tests_cant": "state after every history of failing and succeeding calls", "anchors": ["solarwindpy/core/plasma.py:Plasma.set_auxiliary_data", "solarwindpy/core/plasma.py:Plasma.set_spacecraft"]}
{"id": "C10", "title": "Total number density", "statement": "number_density of a '+'-joined species string is the sum of the single-species densities at every row, independent of the order in which the species are written; with skipna=False it is NaN as soon as one member is NaN, with skipna=True NaN members count as zero; with several arguments no summing takes place.", "quantifier": "all plasmas, species strings, rows", "why_tests_cant": "sum over unbounded species lists with NaN", "anchors": ["solarwindpy/core/plasma.py:Plasma.number_density", "solarwindpy/core/ions.py:Ion.number_density"]}
{"id": "C11", "title": "Mass density", "statement": "mass_density is the mass-number-weighted number density; for pure protons it equals the number density; the total of a '+' string is order independent and additive over disjoint species sets.", "quantifier": "all plasmas, species, rows", "why_tests_cant": "unbounded sums", "anchors": ["solarwindpy/core/plasma.py:Plasma.mass_density", "solarwindpy/core/ions.py:Ion.mass_density", "solarwindpy/core/units_constants.py:Constants"]}
{"id": "C12", "title": "Centre-of-mass velocity carries the total momentum", "statement": "For species with finite positive densities and finite velocities, velocity('s0+s1+...') satisfies sum_i rho_i (v_i - v_com) = 0 in every component, lies componentwise between the smallest and largest species velocity, and for one species is that species' velocity; order of names is irrelevant.", "quantifier": "all species lists, rows, components", "why_tests_cant": "sums over unbounded species lists", "anchors": ["solarwindpy/core/plasma.py:Plasma.velocity"]}
{"id": "C13", "title": "Missing velocities bias the centre of mass (violated)", "statement": "If one species' velocity component is NaN while its density is measured, the centre-of-mass velocity should be NaN or ignore that species. The code drops the momentum but keeps the mass, returning v_1*rho_1/(rho_1+rho_2).", "quantifier": "all such rows", "why_tests_cant": "needs the NaN semantics of groupby-sum for all values", "anchors": ["solarwindpy/core/plasma.py:Plasma.velocity"]}
{"id": "C14", "title": "Differential flow is antisymmetric", "statement": "dv(a,b) = -dv(b,a) at every row and component and therefore has the same magnitude; dv(a,b)+dv(b,c)=dv(a,c); requesting dv of a string with itself raises NotImplementedError, but 'a+p1' against 'p1+a' is not recognised as the same species and yields zero.", "quantifier": "all species strings and rows", "why_tests_cant": "universally quantified over species strings", "anchors": ["solarwindpy/core/plasma.py:Plasma.dv"]}
{"id": "C15", "title": "Thermal pressure and temperature are additive and consistent", "statement": "pth of a '+' string is the sum of single-species pressures in each of par, per, scalar; for every species and row with measured components p_scalar = (p_par + 2 p_per)/3; the same for temperature; pressure/temperature are >= 0 for non-negative density.", "quantifier": "all plasmas, species, rows", "why_tests_cant": "real-valued, unbounded sums", "anchors": ["solarwindpy/core/plasma.py:Plasma.pth", "solarwindpy/core/plasma.py:Plasma.temperature", "solarwindpy/core/ions.py:Ion.pth", "solarwindpy/core/ions.py:Ion.temperature"]}
{"id": "C16", "title": "Plasma beta", "statement": "beta = 2 mu0 p / B^2 in each component, is additive over species, and equals (w/C_A)^2 for a single species (units cancel); it is NaN whenever a magnetic field component is NaN.", "quantifier": "all plasmas, species, rows", "why_tests_cant": "real-valued identity through unit factors", "anchors": ["solarwindpy/core/plasma.py:Plasma.beta", "solarwindpy/core/plasma.py:Plasma.ca"]}
{"id": "C17", "title": "Anisotropy", "statement": "anisotropy(s) is p_per/p_par; it is > 1, = 1, < 1 exactly as w_per >, =, < w_par for a single species with positive density; for one species it does not depend on the density.", "quantifier": "all rows", "why_tests_cant": "real-valued", "anchors": ["solarwindpy/core/plasma.py:Plasma.anisotropy", "solarwindpy/core/ions.py:Ion.anisotropy"]}
{"id": "C18", "title": "Dynamic (drift) pressure", "statement": "pdynamic is >= 0, is zero iff all species with positive density co-move, is invariant under a common velocity shift (Galilean), and for two species equals 1/2 * rho1*rho2/(rho1+rho2) * |v1-v2|^2; one species raises ValueError.", "quantifier": "all species lists, velocities, densities", "why_tests_cant": "sums over unbounded species", "anchors": ["solarwindpy/core/plasma.py:Plasma.pdynamic"]}
{"id": "C19", "title": "Dynamic pressure with m/q projection of three or more species crashes (violated)", "statement": "pdynamic(..., project_m2q=True) should either work or raise a documented error for every species list; with three or more distinct species it falls through both branches and raises UnboundLocalError.", "quantifier": "all species lists of length >= 3", "why_tests_cant": "control-flow hole for every such call", "anchors": ["solarwindpy/core/plasma.py:Plasma.pdynamic"]}
{"id": "C20", "title": "Alfven and sound speed", "statement": "C_A^2 mu0 rho = B^2 and cs^2 rho = gamma p in SI; consequently cs^2/C_A^2 = (gamma/2) beta for the same species; adding a species with positive density strictly lowers C_A when B>0.", "quantifier": "all plasmas, rows", "why_tests_cant": "real identity across three methods", "anchors": ["solarwindpy/core/plasma.py:Plasma.ca", "solarwindpy/core/plasma.py:Plasma.sound_speed", "solarwindpy/core/plasma.py:Plasma.beta"]}
{"id": "C21", "title": "Anisotropy factor", "statement": "afsq(s0+s1+...) = 1 + sum_i (afsq(s_i) - 1); afsq = 1 iff the total pressure is isotropic; afsq = 1 + (beta_per - beta_par)/2; caani = C_A sqrt(afsq) and equals C_A for isotropic pressure.", "quantifier": "all species lists and rows", "why_tests_cant": "documented identity over unbounded species lists", "anchors": ["solarwindpy/core/plasma.py:Plasma.afsq", "solarwindpy/core/plasma.py:Plasma.caani", "solarwindpy/core/plasma.py:Plasma.beta"]}
{"id": "C22", "title": "Coulomb logarithm and collision rate are symmetric where they must be", "statement": "lnlambda(a,b) = lnlambda(b,a) at every row; the momentum exchange is balanced, rho_a nu_ab = rho_b nu_ba; the two-species rate nuc(a,b) equals nuc(b,a).", "quantifier": "all species pairs and rows", "why_tests_cant": "real-valued, transcendental terms", "anchors": ["solarwindpy/core/plasma.py:Plasma.lnlambda", "solarwindpy/core/plasma.py:Plasma.nuc"]}
{"id": "C23", "title": "Coulomb number", "statement": "nc(a,b) raises ValueError iff the plasma has no spacecraft (or an argument is a sum); otherwise nc = nuc * r / |v_com|, and is symmetric in (a,b).", "quantifier": "all plasmas, pairs", "why_tests_cant": "needs all states", "anchors": ["solarwindpy/core/plasma.py:Plasma.nc"]}
{"id": "C24", "title": "VDF ratio is the log ratio of two bi-Maxwellians", "statement": "For every beam/core pair of proton populations with positive density and thermal speeds and non-zero B, vdf_ratio is the natural log of the beam bi-Maxwellian over the core bi-Maxwellian, both evaluated at the beam velocity.", "quantifier": "all rows", "why_tests_cant": "real analysis identity", "anchors": ["solarwindpy/core/plasma.py:Plasma.vdf_ratio"]}
{"id": "C25", "title": "Estimated electrons are quasi-neutral and current-free", "statement": "estimate_electrons returns n_e = sum q_i n_i and v_e with n_e v_e = sum q_i n_i v_i (zero net charge and current) on every row with n_e != 0, NaN velocity on rows with n_e = 0, and an electron thermal speed corresponding to T_e = T_p n_p / n_e per component (so T_e differs from T_p as soon as other ions carry charge); it raises NotImplementedError iff 'e' is present and ValueError iff not exactly one of 'p','p1' is.", "quantifier": "all plasmas and rows", "why_tests_cant": "sums over unbounded species, control flow over all species sets", "anchors": ["solarwindpy/core/plasma.py:Plasma.estimate_electrons"]}
{"id": "C26", "title": "Heat flux", "statement": "heat_flux is zero when all species co-move, odd under reversal of all velocities, the '+' form is the sum of the per-species form, and a single species raises ValueError.", "quantifier": "all species lists", "why_tests_cant": "unbounded sums", "anchors": ["solarwindpy/core/plasma.py:Plasma.heat_flux"]}
{"id": "C27", "title": "Kinetic energy flux is unusable (violated)", "statement": "kinetic_energy_flux should return a value for every available species; every call with valid species raises AttributeError because the unit it needs does not exist.", "quantifier": "all plasmas and species", "why_tests_cant": "holds for every call", "anchors": ["solarwindpy/core/ions.py:Ion.kinetic_energy_flux", "solarwindpy/core/units_constants.py:Units", "solarwindpy/core/plasma.py:Plasma.kinetic_energy_flux"]}
{"id": "C28", "title": "Specific entropy and sound speed are consistent", "statement": "specific_entropy = p rho^(-5/3); it is unchanged by adiabatic compression (rho -> k rho, p -> k^(5/3) p) for every k>0.", "quantifier": "all positive rho, p, k", "why_tests_cant": "real-valued", "anchors": ["solarwindpy/core/plasma.py:Plasma.specific_entropy", "solarwindpy/core/ions.py:Ion.specific_entropy"]}
{"id": "C29", "title": "Vector magnitude and spherical coordinates", "statement": "mag^2 = x^2+y^2+z^2, rho^2 = x^2+y^2, mag is NaN iff a component is NaN; (x,y) = rho (cos lon, sin lon).", "quantifier": "all vectors", "why_tests_cant": "real-valued", "anchors": ["solarwindpy/core/vector.py:Vector.mag", "solarwindpy/core/vector.py:Vector.rho", "solarwindpy/core/vector.py:Vector.lon"]}
{"id": "C30", "title": "Latitude and colatitude are exchanged (violated)", "statement": "colatitude should be the angle from +z (0 at the pole) and latitude the angle from the x-y plane. The implementation returns arctan2(z, rho) as colatitude and arctan2(rho, z) as latitude, i.e. exactly the other one, for every vector.", "quantifier": "all vectors", "why_tests_cant": "must hold for every vector", "anchors": ["solarwindpy/core/vector.py:Vector.colat", "solarwindpy/core/vector.py:Vector.lat"]}
{"id": "C31", "title": "Unit vectors and projections", "statement": "A unit vector of a non-zero vector has magnitude 1; project(v,b) returns (par, per) with par = v.b/|b|, per >= 0, par^2+per^2=|v|^2 and is unchanged when b is scaled by a positive factor.", "quantifier": "all vectors v, all non-zero b", "why_tests_cant": "real-valued", "anchors": ["solarwindpy/core/vector.py:Vector.unit_vector", "solarwindpy/core/vector.py:Vector.project"]}
{"id": "C32", "title": "cos_theta is a cosine", "statement": "cos_theta(v,b) lies in [-1,1] for all non-zero v,b, is symmetric, and is +1/-1 iff v is a positive/negative multiple of b.", "quantifier": "all non-zero vectors", "why_tests_cant": "Cauchy-Schwarz over reals", "anchors": ["solarwindpy/core/vector.py:Vector.cos_theta"]}
{"id": "C33", "title": "Calling a vector or tensor by component always fails (violated)", "statement": "vector('x') / tensor('per') should return the component; the call resolves through a hook that does not exist and raises AttributeError for every argument.", "quantifier": "all arguments", "why_tests_cant": "every call", "anchors": ["solarwindpy/core/vector.py:Vector.__call__", "solarwindpy/core/tensor.py:Tensor.__call__"]}
{"id": "C34", "title": "Distance to the Sun", "statement": "In HCI the distance is |position| * R_sun; in GSE it is the norm of (AU - x Re, y Re, z Re): 1 AU at Earth and within |pos|*Re of 1 AU always; frames and names other than GSE/HCI and WIND/PSP (any letter case) raise NotImplementedError.", "quantifier": "all positions, all frame/name strings", "why_tests_cant": "real-valued; strings", "anchors": ["solarwindpy/core/spacecraft.py:Spacecraft.distance2sun", "solarwindpy/core/spacecraft.py:Spacecraft.set_frame_name"]}
{"id": "C35", "title": "Abundance ratio", "statement": "abundance_ratio(X,Y) = 10^(A_X - A_Y), is reciprocal under exchange, multiplicative along chains, and its uncertainty is ratio*ln10*sqrt(sx^2+sy^2) with missing uncertainties as zero -- except that for denominator 'H' a missing uncertainty is propagated as NaN.", "quantifier": "all tables and elements", "why_tests_cant": "real-valued; all table contents", "anchors": ["solarwindpy/core/abundances.py:ReferenceAbundances.abundance_ratio"]}
{"id": "C36", "title": "Elsasser energies obey their identities", "statement": "z+ - z- = 2b, z+ + z- = 2v, e+ + e- = 2(ev+eb), e+ - e- = 4 Hc, etot = (e+ + e-)/2 and eres = ev - eb, at every row with measured fields.", "quantifier": "all velocity/field fluctuations", "why_tests_cant": "real identity", "anchors": ["solarwindpy/core/alfvenic_turbulence.py:AlfvenicTurbulence"]}
{"id": "C37", "title": "Normalised turbulence quantities are bounded and consistent", "statement": "sigma_c and sigma_r lie in [-1,1], sigma_c^2 + sigma_r^2 <= 1, sigma_c = (1-rE)/(1+rE), sigma_r = (rA-1)/(rA+1), whenever etot > 0.", "quantifier": "all non-zero fluctuations", "why_tests_cant": "real inequality", "anchors": ["solarwindpy/core/alfvenic_turbulence.py:AlfvenicTurbulence.sigma_c", "solarwindpy/core/alfvenic_turbulence.py:AlfvenicTurbulence.sigma_r"]}
{"id": "C38", "title": "Turbulence species strings are normalised", "statement": "The species attribute accepts at most one comma, sorts each '+'-joined side, and normalising twice changes nothing; two commas raise ValueError.", "quantifier": "all strings", "why_tests_cant": "unbounded strings", "anchors": ["solarwindpy/core/alfvenic_turbulence.py:AlfvenicTurbulence._clean_species_for_setting"]}
{"id": "C39", "title": "Fluctuations are mean-free", "statement": "The stored fluctuation at a row is the measurement minus the mean of the measured values in the trailing window ending there (NaN if the measurement is NaN or fewer than min_periods are measured): the window's deviations from that mean sum to zero, a constant series gives zero, adding a constant to the input changes nothing, and data outside the window (in particular later data) have no influence.", "quantifier": "all time series and windows", "why_tests_cant": "unbounded series", "anchors": ["solarwindpy/core/alfvenic_turbulence.py:AlfvenicTurbulence.set_data"]}
{"id": "C40", "title": "Fit observations are selected exactly", "statement": "An observation takes part in a fit iff x, y and (if given) weight are finite, each lies in its closed [min,max] limits, and it is not strictly inside an excluded open interval ('outside' limits); used arrays are the raw arrays restricted to that mask, in order, and x, y, w stay aligned.", "quantifier": "all data arrays and limit settings", "why_tests_cant": "unbounded arrays with NaN/inf", "anchors": ["solarwindpy/fitfunctions/core.py:FitFunction._build_one_obs_mask", "solarwindpy/fitfunctions/core.py:FitFunction._build_outside_mask", "solarwindpy/fitfunctions/core.py:FitFunction._set_argnames", "solarwindpy/fitfunctions/core.py:FitFunction.set_fit_obs"]}
{"id": "C41", "title": "Invalid fit input is rejected", "statement": "Construction of a fit function fails with InvalidParameterError/AssertionError/ValueError iff array shapes differ, weight limits are given without weights, or an 'outside' pair is not in increasing order; in particular the documented 2-D covariance weights are always rejected.", "quantifier": "all shapes", "why_tests_cant": "all shapes", "anchors": ["solarwindpy/fitfunctions/core.py:FitFunction._clean_raw_obs"]}
{"id": "C42", "title": "Insufficient data detection", "statement": "make_fit raises InsufficientDataError iff the number of used observations is smaller than the number of fit parameters; with return_exception=True the same exception object is returned, not raised.", "quantifier": "all data and function arities", "why_tests_cant": "all sizes", "anchors": ["solarwindpy/fitfunctions/core.py:FitFunction.sufficient_data", "solarwindpy/fitfunctions/core.py:FitFunction.make_fit"]}
{"id": "C43", "title": "A failed fit leaves earlier results untouched", "statement": "Over every sequence of make_fit calls, the stored popt/psigma/pcov/chisq are those of the last successful call; a failing call (insufficient data, optimiser failure, non-finite result) changes none of them.", "quantifier": "all histories of fits with any optimiser outcomes", "why_tests_cant": "history property", "anchors": ["solarwindpy/fitfunctions/core.py:FitFunction.make_fit"]}
{"id": "C44", "title": "Residuals and R^2", "statement": "residuals(pct=False) are observed minus fitted; percent residuals are 100*(obs-fit)/fit and NaN where fit = 0; the plot class reports the opposite sign; R^2 = 1 iff every residual is zero (non-constant data) and R^2 <= 1 always.", "quantifier": "all data", "why_tests_cant": "real-valued unbounded arrays", "anchors": ["solarwindpy/fitfunctions/core.py:FitFunction.residuals", "solarwindpy/fitfunctions/core.py:FitFunction.rsq", "solarwindpy/fitfunctions/plots.py:FFPlot.residuals"]}
{"id": "C45", "title": "Chi-square per degree of freedom", "statement": "dof = nobs - nparams >= 0 after a successful fit, chisq_dof = chisq/dof for dof>0 and inf when dof = 0; chisq >= 0 and is zero iff the curve passes through every used point.", "quantifier": "all data", "why_tests_cant": "all sizes", "anchors": ["solarwindpy/fitfunctions/core.py:FitFunction.dof", "solarwindpy/fitfunctions/core.py:FitFunction._calc_popt_pcov_psigma_chisq"]}
{"id": "C46", "title": "Trend fits partition the functions into good and bad", "statement": "After make_1dfits on the sequential path every 1-D fit function is in exactly one of ffuncs / bad_fits, bad ones exactly those whose make_fit returned an exception, order preserved.", "quantifier": "all sets of fit outcomes", "why_tests_cant": "all outcome combinations", "anchors": ["solarwindpy/fitfunctions/trend_fits.py:TrendFit.make_1dfits"]}
{"id": "C47", "title": "Parallel and sequential 1-D fits agree (violated)", "statement": "make_1dfits(n_jobs=2) should give the same fits as n_jobs=1. The parallel path rebuilds each function without its x/y limits and weights, so it fits a different data set whenever a limit actually excludes a point.", "quantifier": "all data and limits", "why_tests_cant": "schedule/config independence", "anchors": ["solarwindpy/fitfunctions/trend_fits.py:TrendFit.make_1dfits"]}
{"id": "C48", "title": "n_jobs with at most one column crashes (violated)", "statement": "make_1dfits should succeed for every n_jobs; with n_jobs != 1 and at most one function it raises UnboundLocalError.", "quantifier": "all n_jobs != 1", "why_tests_cant": "control flow for every call", "anchors": ["solarwindpy/fitfunctions/trend_fits.py:TrendFit.make_1dfits"]}
{"id": "C49", "title": "Gaussian fits hide their failures from trend fits (violated)", "statement": "TrendFit should list failed 1-D fits in bad_fits. Gaussian.make_fit discards the returned exception, so for Gaussian 1-D functions bad_fits stays empty whatever fails.", "quantifier": "all outcomes", "why_tests_cant": "all histories", "anchors": ["solarwindpy/fitfunctions/gaussians.py:Gaussian.make_fit", "solarwindpy/fitfunctions/trend_fits.py:TrendFit.make_1dfits"]}
{"id": "C50", "title": "Line intercepts", "statement": "For Line(m,b), m != 0: the function vanishes at x_intercept and equals y_intercept at 0; LineXintercept(m,x0) is the same line with b = -m x0; conversions are mutually inverse.", "quantifier": "all m != 0, b, x", "why_tests_cant": "real-valued", "anchors": ["solarwindpy/fitfunctions/lines.py:Line", "solarwindpy/fitfunctions/lines.py:LineXintercept"]}
{"id": "C51", "title": "Initial guess of a line fit has the wrong sign (violated)", "statement": "For noise-free data on y = m x + b the initial guess should be (m,b); the code returns (m,-b) for every line and every set of >= 2 distinct abscissae, so it is wrong whenever b != 0 (and LineXintercept gets -x0).", "quantifier": "all lines, all abscissae", "why_tests_cant": "all data sets", "anchors": ["solarwindpy/fitfunctions/lines.py:Line.p0", "solarwindpy/fitfunctions/lines.py:LineXintercept.p0"]}
{"id": "C52", "title": "Hinge functions are continuous and pass through their hinge", "statement": "HingeMin, HingeMax, HingeSaturation and HingeAtPoint are continuous broken lines through their hinge; the documented left/right order of the two slopes holds iff m2 <= m1 (minimum forms) resp. m1 <= m2 (maximum form); slopes of magnitude <= 1e-15 in HingeSaturation count as 0.", "quantifier": "all parameters and x", "why_tests_cant": "real-valued", "anchors": ["solarwindpy/fitfunctions/hinge.py"]}
{"id": "C53", "title": "TwoLine and Saturation agree", "statement": "TwoLine is the lower of its two lines, which meet exactly at (xs,s) when the slopes differ; Saturation at a TwoLine's x1, xs, s, theta is the same curve with the same derived slopes and intercept (plateau not flat); the angle of HingeMin/HingeMax equals that of TwoLine for all slopes.", "quantifier": "all parameters", "why_tests_cant": "real-valued", "anchors": ["solarwindpy/fitfunctions/hinge.py:TwoLine", "solarwindpy/fitfunctions/hinge.py:Saturation"]}
{"id": "C54", "title": "Step functions", "statement": "HeavySide is y0+y1 below x0 and y0 above; exactly at x0 it is y1*(y0+y1)/2 + y0, the midpoint only if y1 = 0 or y0+y1 = 1. GaussianPlusHeavySide adds the step (midpoint at x0), GaussianTimesHeavySide is 0 below x0 and the Gaussian from x0 on, GaussianTimesHeavySidePlusHeavySide is y1 below, the Gaussian above, and their sum at x0.", "quantifier": "all x, parameters", "why_tests_cant": "real-valued", "anchors": ["solarwindpy/fitfunctions/heaviside.py:HeavySide", "solarwindpy/fitfunctions/composite.py"]}
{"id": "C55", "title": "Gaussian family", "statement": "Gaussian is symmetric about mu, positive, at most A with equality only at mu, decreasing away from mu; GaussianNormalized integrates to n (to -n for negative sigma); GaussianLn is the Gaussian of ln x with height A at e^m; normal_parameters determine (m, s^2).", "quantifier": "all parameters", "why_tests_cant": "integral over the real line", "anchors": ["solarwindpy/fitfunctions/gaussians.py"]}
{"id": "C56", "title": "Exponential and power-law families", "statement": "ExponentialCDF is 0 at 0, increasing and bounded by y0 for positive parameters; ExponentialPlusC / PowerLawPlusC differ from the plain form by the constant; PowerLaw is log-log linear with slope b.", "quantifier": "all parameters", "why_tests_cant": "real-valued", "anchors": ["solarwindpy/fitfunctions/exponentials.py", "solarwindpy/fitfunctions/power_laws.py"]}
{"id": "C57", "title": "Math-mode escaping of fit labels", "statement": "Text without dollar signs is delimited by $, text with an even positive number is unchanged, an odd number raises ValueError; the parameter lines of an annotation are always balanced; a list of extra lines is accepted iff each has an even number of dollars. An extra string, however, is neither checked nor delimited, so an odd one unbalances the annotation.", "quantifier": "all strings", "why_tests_cant": "unbounded strings", "anchors": ["solarwindpy/fitfunctions/tex_info.py:TeXinfo._check_and_add_math_escapes"]}
{"id": "C58", "title": "Fit report is consistent with the fit", "statement": "Parameters are accepted iff every name in popt has an uncertainty (ValueError otherwise); an unknown keyword raises ValueError and keeps the stored text; after any history of builds str(TeX_info) is the text of the last successful build.", "quantifier": "all dictionaries", "why_tests_cant": "unbounded", "anchors": ["solarwindpy/fitfunctions/tex_info.py:TeXinfo.set_popt_psigma", "solarwindpy/fitfunctions/tex_info.py:TeXinfo.build_info"]}
{"id": "C59", "title": "Proton population swapping", "statement": "swap_protons exchanges all measurements of p1 and p2 exactly on the rows where n2/n1 > 1 (for positive n1: n2 > n1; never if a density is missing; reversed for negative n1) and leaves every other row and column untouched; afterwards n1 >= n2 wherever both are measured and non-negative. A second call changes no value but adds a second column with the label of the swap record.", "quantifier": "all frames", "why_tests_cant": "unbounded rows, NaN", "anchors": ["solarwindpy/tools/__init__.py:swap_protons"]}
{"id": "C60", "title": "Instability thresholds and bins", "statement": "For non-negative or missing beta each (anisotropy, beta) row receives exactly one stability bin and no error: 4 iff the MM threshold is exceeded, 3 iff AIC but not MM, 0 iff OFI, 1 iff FMW but not OFI, 2 iff none; bins >= 3 need anisotropy > 1, bins <= 1 anisotropy < 1. Above its pole each threshold moves strictly towards 1 with beta. Unknown growth rates raise KeyError. (Evaluated with pandas < 2; see C108.)", "quantifier": "all beta, anisotropy incl. NaN thresholds", "why_tests_cant": "real-valued", "anchors": ["solarwindpy/instabilities/verscharen2016.py:StabilityCondition"]}
{"id": "C61", "title": "Cached data freshness", "statement": "For every history of program runs (each: construct the loader, load once) on non-decreasing days with any pattern of server failures: a cache holding one complete file stays in that state; a run serves today's complete data if the server answers (or the file is already today's), otherwise reports the error and leaves the cache untouched; each day sees at most one successful download, and none before the date of the cached file.", "quantifier": "all histories of calls and dates", "why_tests_cant": "history property", "anchors": ["solarwindpy/solar_activity/base.py:DataLoader.maybe_update_stale_data", "solarwindpy/solar_activity/lisird/lisird.py:LISIRDLoader.download_data"]}
{"id": "C62", "title": "A crash between write and delete wedges the loader (violated)", "statement": "After a crash at any point of a download the next run should recover. If the crash falls between the appearance of the new file and removal of the old one, two dated files remain and every later run ends in AssertionError forever; a crash in the very first download leaves a truncated file that is served as today's data (SIDC) or a data file without metadata (LISIRD: FileNotFoundError for the rest of the day).", "quantifier": "all crash points", "why_tests_cant": "crash points", "anchors": ["solarwindpy/solar_activity/base.py:DataLoader.get_data_ctime", "solarwindpy/solar_activity/lisird/lisird.py:LISIRDLoader.download_data", "solarwindpy/solar_activity/sunspot_number/sidc.py:SIDCLoader.download_data"]}
{"id": "C63", "title": "Data age accessor (violated)", "statement": "age should return the data age; it reads a different attribute than the one set and raises AttributeError in every state.", "quantifier": "all states", "why_tests_cant": "all states", "anchors": ["solarwindpy/solar_activity/base.py:DataLoader.age", "solarwindpy/solar_activity/base.py:DataLoader.get_data_age"]}
{"id": "C64", "title": "Interpolation never extrapolates", "statement": "For ascending target times interpolate_data returns one value per target: missing exactly outside the closed range of the sample times, the sample itself at a sample time. It refuses exactly samples that are not in order of time (ValueError), three or fewer samples and no targets (IndexError). Violated for other orders: only the first and last targets are compared, so any extrapolated value in between is returned; and between samples the cubic interpolant can exceed both neighbours (proved for four equidistant samples).", "quantifier": "all series, all targets", "why_tests_cant": "unbounded series", "anchors": ["solarwindpy/solar_activity/base.py:ActivityIndicator.interpolate_data"]}
{"id": "C65", "title": "Cycle intervals tile time", "statement": "For every well-formed table of extrema (consecutive numbers; minimum < maximum < next minimum; last cycle possibly in progress) the intervals exist; each time after the first minimum up to the end of the last cycle lies in exactly one cycle and exactly one of its two edges, any other time in none; cutting by Cycle or Edges assigns exactly that interval.", "quantifier": "all extrema tables", "why_tests_cant": "unbounded tables", "anchors": ["solarwindpy/solar_activity/base.py:IndicatorExtrema.calculate_intervals", "solarwindpy/solar_activity/base.py:IndicatorExtrema.cut_spec_by_interval"]}
{"id": "C66", "title": "Sunspot bands", "statement": "The N = ceil(max/2d) sunspot bands of half width d are adjacent and right-closed: each value in (-d,(2N-1)d] gets exactly the one band containing it, every other value none. Whenever the maximum is a multiple of 2d the upper half band below the maximum is uncovered. nssn with d >= 1 raises ValueError, a call before interpolation AttributeError.", "quantifier": "all values, d, maxima", "why_tests_cant": "real-valued", "anchors": ["solarwindpy/solar_activity/sunspot_number/sidc.py:SSNExtrema.cut_spec_by_ssn_band"]}
{"id": "C67", "title": "Activity normalisation", "statement": "Per cycle, for measured or missing values: division by the (positive) maximum gives values <= 1 attaining 1; feature scaling maps affinely onto [0,1] attaining both ends; the z-score has mean 0 and unit sample variance; missing stays missing and positions are kept. Cycles with constant values give no number under feature scaling and z-score, nor under max if the constant is 0.", "quantifier": "all non-degenerate series", "why_tests_cant": "unbounded series", "anchors": ["solarwindpy/solar_activity/sunspot_number/sidc.py:SIDC.run_normalization"]}
{"id": "C68", "title": "Extrema validation keeps separated extrema", "statement": "Of ascending candidates the first is kept, kept ones are more than the minimum separation apart, and a later candidate is kept iff it is that far after the candidate just before it. Violated: evenly spaced candidates with step <= separation are all dropped except the first, though later ones are far from it; a fixed number of candidates is removed by name, so F10.7 with a single maximum raises IndexError.", "quantifier": "all candidate lists", "why_tests_cant": "unbounded lists", "anchors": ["solarwindpy/solar_activity/lisird/extrema_calculator.py:ExtremaCalculator._validate_extrema"]}
{"id": "C69", "title": "ICME containment", "statement": "For every catalogue (any order, overlaps, ties, missing times) and every list of times, contains answers in place whether some event with a measured end has start <= t <= end; a missing time is never contained; the result does not depend on how argsort orders ties.", "quantifier": "all catalogues and times", "why_tests_cant": "unbounded lists; correctness of the sorted search", "anchors": ["solarwindpy/solar_activity/icme/icmecat.py:ICMECAT.contains"]}
{"id": "C70", "title": "ICME interval end", "statement": "interval_end is the measured end if present, else magnetic-obstacle start + 24 h, else event start + 24 h; it is missing iff all three are; events from get_events_in_range are exactly those with start <= end_query and interval_end >= start_query.", "quantifier": "all catalogues", "why_tests_cant": "unbounded", "anchors": ["solarwindpy/solar_activity/icme/icmecat.py:ICMECAT._prepare_intervals", "solarwindpy/solar_activity/icme/icmecat.py:ICMECAT.get_events_in_range"]}
{"id": "C71", "title": "ICME spacecraft filter", "statement": "In a consistently spelled catalogue filter(name) keeps, in order, exactly the events whose spacecraft equals name up to case; repeating it (in any case) changes nothing, filtering by two different craft leaves nothing. Violated otherwise: if a craft occurs in two spellings only the last new one is kept; one event without craft name makes every filter raise AttributeError.", "quantifier": "all catalogues and names", "why_tests_cant": "unbounded", "anchors": ["solarwindpy/solar_activity/icme/icmecat.py:ICMECAT.filter", "solarwindpy/solar_activity/icme/icmecat.py:ICMECAT._filter_by_spacecraft"]}
{"id": "C72", "title": "ICME cache staleness", "statement": "The server is asked iff there is no cache directory, no cache file, or the file is more than 30 days old; over every history of runs each run fails for the network or serves an answer the server gave at most 30 days earlier; a failed download leaves the cache alone.", "quantifier": "all histories", "why_tests_cant": "histories", "anchors": ["solarwindpy/solar_activity/icme/icmecat.py:ICMECAT._load_data"]}
{"id": "C73", "title": "Histogram binning", "statement": "With ascending edges every number strictly above the first and not above the last edge is assigned to exactly one bin, the right-closed one containing it; other numbers, NaN and infinities to none. Violated for automatic bins: the smallest datum is in no bin unless rounding moves the first edge below it (never, if it is a multiple of the rounding step), and the largest is lost whenever rounding moves the last edge below it.", "quantifier": "all data, all edges", "why_tests_cant": "unbounded data", "anchors": ["solarwindpy/plotting/agg_plot.py:AggPlot.calc_bins_intervals", "solarwindpy/plotting/agg_plot.py:AggPlot.make_cut"]}
{"id": "C74", "title": "Histogram counts are conserved", "statement": "The bin counts (1-D, and cell counts in 2-D) add up to the number of rows with present values inside the binned range, each bin counting exactly its own rows; clim hides exactly bins whose count is outside the closed limits and leaves the others unchanged.", "quantifier": "all data", "why_tests_cant": "unbounded", "anchors": ["solarwindpy/plotting/agg_plot.py:AggPlot._agg_runner", "solarwindpy/plotting/hist1d.py:Hist1D.agg"]}
{"id": "C75", "title": "Density normalisation integrates to one on linear axes", "statement": "For axnorm='d' and a linear axis the sum of value*width is 1 for any non-empty histogram; for logarithmic axes it is not (the width is replaced by 10^width).", "quantifier": "all histograms", "why_tests_cant": "unbounded", "anchors": ["solarwindpy/plotting/hist1d.py:Hist1D._axis_normalizer", "solarwindpy/plotting/hist2d.py:Hist2D._axis_normalizer"]}
{"id": "C76", "title": "Row/column/total normalisation of 2-D histograms", "statement": "'c' makes every column's maximum 1 and keeps ratios inside a column, 'r' the same for rows, 't' overall; 'cd' ('rd') makes each column (row) integrate to 1.", "quantifier": "all positive grids", "why_tests_cant": "unbounded grids", "anchors": ["solarwindpy/plotting/hist2d.py:Hist2D._axis_normalizer"]}
{"id": "C77", "title": "Plotted-data selection in 2-D (violated)", "statement": "get_plotted_data_boolean_series should mark exactly the data in displayed bins. In 1-D it does; in 2-D a datum in cell (i,j) is marked iff column i and row j each show some cell, so data in hidden cells are marked too (reachable). get_subset_above_threshold behaves the same.", "quantifier": "all data and limits", "why_tests_cant": "unbounded", "anchors": ["solarwindpy/plotting/agg_plot.py:AggPlot.get_plotted_data_boolean_series"]}
{"id": "C78", "title": "Empirical CDF", "statement": "construct_cdf returns each selected measurement exactly once in ascending order at positions k/(n-1), from 0 to 1 in equal steps; a single measurement gets a missing position; more than two different aggregated values raise ValueError.", "quantifier": "all data", "why_tests_cant": "unbounded", "anchors": ["solarwindpy/plotting/hist1d.py:Hist1D.construct_cdf"]}
{"id": "C79", "title": "Adaptive mesh cells partition the plane region", "statement": "After every number of refinement steps the mesh cells are pairwise disjoint and cover exactly the initial region, so each in-range point belongs to exactly one cell and its bin number is that cell, independent of the parallel loop order.", "quantifier": "all meshes, data, steps, thread schedules", "why_tests_cant": "unbounded refinement and schedules", "anchors": ["solarwindpy/plotting/spiral.py:SpiralMesh.process_one_spiral_step", "solarwindpy/plotting/spiral.py:SpiralMesh.generate_mesh", "solarwindpy/plotting/spiral.py:calculate_bin_number_with_numba"]}
{"id": "C80", "title": "Adaptive mesh respects the population limit", "statement": "If generate_mesh terminates every cell holds at most min_per_bin data and the cells still partition the region. It terminates iff at no point of the initial region more than min_per_bin data coincide.", "quantifier": "all data", "why_tests_cant": "unbounded steps", "anchors": ["solarwindpy/plotting/spiral.py:SpiralMesh.generate_mesh"]}
{"id": "C81", "title": "Edge extension keeps the maximum inside", "statement": "The last edge is moved strictly above every edge whatever the signs, the others are kept. With an integer number of bins every finite datum lies in the region, hence in exactly one cell of the finished mesh.", "quantifier": "all data", "why_tests_cant": "real-valued", "anchors": ["solarwindpy/plotting/spiral.py:SpiralPlot2D.calc_initial_bins"]}
{"id": "C82", "title": "Grid layout helper", "statement": "calculate_nrows_ncols(n) returns for every n >= 1 the most balanced grid with exactly n places, or n+1 places exactly if n is a prime above 4; at least as many rows as columns from four rows on, else at most as many. n = 0 fails.", "quantifier": "all n >= 1", "why_tests_cant": "all naturals", "anchors": ["solarwindpy/plotting/tools.py:calculate_nrows_ncols"]}
{"id": "C83", "title": "Shared-colourbar layout", "statement": "For every grid shape and location build_ax_array_with_common_colorbar makes one panel per (row, column), in order, each on its own full-size grid cell; the colour bar spans its whole side on the side asked for, with one empty spacer line between bar and panels. Other locations raise ValueError.", "quantifier": "all nrows, ncols, locations", "why_tests_cant": "all sizes", "anchors": ["solarwindpy/plotting/tools.py:build_ax_array_with_common_colorbar"]}
{"id": "C84", "title": "NaN-aware smoothing", "statement": "nan_gaussian_filter keeps missing cells missing; a valid cell whose kernel sees only numbers in [lo,hi] becomes a number in [lo,hi] (so constants are reproduced) whatever is missing; the value depends only on the cells the kernel reaches; without missing cells and with unit kernel mass it is the plain filter. Violated: integer arrays always raise TypeError.", "quantifier": "all arrays, all non-negative kernels", "why_tests_cant": "unbounded arrays", "anchors": ["solarwindpy/plotting/tools.py:nan_gaussian_filter"]}
{"id": "C85", "title": "Label ordering (violated in part)", "statement": "Labels are equal iff their texts are, equal labels hash equally, < and > are the strict text order and trichotomous. Violated: <= and >= are strict too, so a <= a is False for every label.", "quantifier": "all labels", "why_tests_cant": "all strings", "anchors": ["solarwindpy/plotting/labels/base.py:Base"]}
{"id": "C86", "title": "Ratio labels", "statement": "A label has its measurement's units (degrees for angular components, ??? if unknown, the same for its error); a ratio is dimensionless iff the units agree, otherwise u0/u1; normalised labels are dimensionless. Violated: ratios of two unknown quantities, and of an angular to another component, are labelled dimensionless.", "quantifier": "all measurement pairs", "why_tests_cant": "tables x strings", "anchors": ["solarwindpy/plotting/labels/base.py:TeXlabel.build_label"]}
{"id": "C87", "title": "Ion labels", "statement": "Ion accepts a textual charge iff int() reads it or it is 'i' or 'j' (else ValueError), every integer charge; the species is case-insensitive; the path writes p/m for signs. Violated: with an integer charge, the documented form, path raises AttributeError, also in every ratio.", "quantifier": "all strings", "why_tests_cant": "unbounded", "anchors": ["solarwindpy/plotting/labels/composition.py:Ion"]}
{"id": "C88", "title": "Version bump always moves forward", "statement": "For every readable version and each of the six bump words the string produced reads back as the intended version; it is accepted, and a tag created, only if it is strictly later in semantic-version order, which fails exactly when an earlier pre-release stage is asked for; at most one tag is added, never in a dry run or on a dirty working directory; a free, later tag is created.", "quantifier": "all versions and bump kinds", "why_tests_cant": "all naturals", "anchors": ["scripts/bump_version.py:bump_version", "scripts/bump_version.py:validate_version_progression"]}
{"id": "C89", "title": "PyPI wait loop is bounded", "statement": "wait_for_pypi with a positive interval stops after a number of requests bounded by the time allowed and the interval alone, for every behaviour of index and clock; each sleep is non-negative and planned to end by the deadline; it returns True iff a request made found exactly the version (status 200); exit code 0 only for a final version that was found.", "quantifier": "all schedules of availability", "why_tests_cant": "schedules", "anchors": ["scripts/wait_for_pypi.py:wait_for_pypi"]}
{"id": "C90", "title": "Requirement translation", "statement": "A requirement 'name op version' with any spacing translates to the conda name with the same constraint, without it for '==' pins and tzdata; a bare name to the conda name. Violated: with a further constraint or an environment marker containing '>=' the pin stays and the name is not translated.", "quantifier": "all requirement strings", "why_tests_cant": "unbounded strings", "anchors": ["scripts/requirements_to_conda_env.py:translate_package_name"]}
{"id": "C91", "title": "A plasma saved without attachments cannot be loaded by default (violated)", "statement": "Plasma.load_from_file with its default keys should load every file Plasma.save wrote. If the saved plasma had no spacecraft (or no auxiliary data) the default load raises KeyError.", "quantifier": "all plasmas without spacecraft or auxiliary data", "why_tests_cant": "needs every plasma state, not one fixture", "anchors": ["solarwindpy/core/plasma.py:Plasma.save", "solarwindpy/core/plasma.py:Plasma.load_from_file"]}
{"id": "C92", "title": "Saving leaves stale attachments in the file (violated)", "statement": "After save the file should describe the saved plasma. The file is opened in append mode, so the auxiliary data of an earlier save survive a later save of a plasma that has none, and loading attaches them.", "quantifier": "all pairs of successive saves", "why_tests_cant": "a history property over the file's contents", "anchors": ["solarwindpy/core/plasma.py:Plasma.save"]}
{"id": "C93", "title": "Tensor.set_data ignores its argument (violated)", "statement": "Tensor.set_data(new) should store the new data; for every tensor and every input it leaves the stored data unchanged.", "quantifier": "all tensors, all data", "why_tests_cant": "holds for all inputs", "anchors": ["solarwindpy/core/tensor.py:Tensor.set_data"]}
{"id": "C94", "title": "Missing thermal data become zero in single-string queries (violated)", "statement": "thermal_speed, pth, temperature and beta of one species on a row whose thermal data are missing should be NaN; the single-string path sums with NaN skipping and returns 0, and anisotropy is +inf where only the parallel component is missing.", "quantifier": "all plasmas and rows", "why_tests_cant": "needs every missing-data pattern", "anchors": ["solarwindpy/core/plasma.py:Plasma.thermal_speed", "solarwindpy/core/plasma.py:Plasma.pth", "solarwindpy/core/plasma.py:Plasma.anisotropy"]}
{"id": "C95", "title": "Coulomb logarithm of opposite charges is NaN (violated)", "statement": "lnlambda(a,b) should be a number for every pair of species with measured data; for charges of opposite sign (electron-ion) the argument of the logarithm is negative and the result is NaN at every row.", "quantifier": "all rows and species pairs of opposite charge", "why_tests_cant": "needs every row", "anchors": ["solarwindpy/core/plasma.py:Plasma.lnlambda"]}
{"id": "C96", "title": "Missing spacecraft positions (violated)", "statement": "A missing spacecraft position should give a missing distance to the Sun; distance2sun skips NaN, so a row with no measured component is reported at distance 0 in both frames, and partly missing positions as the norm of the rest.", "quantifier": "all frames and positions", "why_tests_cant": "every missing-data pattern", "anchors": ["solarwindpy/core/spacecraft.py:Spacecraft.distance2sun"]}
{"id": "C97", "title": "Turbulence energies with missing fluctuations (violated)", "statement": "Where a fluctuation component is missing the Elsasser identities should hold or the energies be NaN. Energies skip NaN per component, so e+ + e- misses the other field's energy in that component, and rows without any measured fluctuation (e.g. before min_periods) report energy 0.", "quantifier": "all rows", "why_tests_cant": "every missing-data pattern", "anchors": ["solarwindpy/core/alfvenic_turbulence.py:AlfvenicTurbulence.e_plus", "solarwindpy/core/alfvenic_turbulence.py:AlfvenicTurbulence.total_energy"]}
{"id": "C98", "title": "Rectified turbulence version", "statement": "raffaella_version needs a spacecraft vector (ValueError otherwise); the polarity is the sign -1, 0 or 1 (NaN only if opposite infinities meet); where it is +-1 total and residual energy are those of the unrectified fluctuations and the cross helicity is multiplied by the polarity.", "quantifier": "all inputs and rows", "why_tests_cant": "quantifies over all series", "anchors": ["solarwindpy/core/alfvenic_turbulence.py:AlfvenicTurbulence.set_data", "solarwindpy/core/alfvenic_turbulence.py:AlfvenicTurbulence.bfield"]}
{"id": "C99", "title": "Half-updated fit after a covariance failure (violated)", "statement": "make_fit(return_exception=True) should return every fit failure and leave the earlier results untouched. A failure while computing the covariance (after the optimiser succeeded) is raised regardless of return_exception and leaves the new fit_bounds beside the old parameters.", "quantifier": "all histories", "why_tests_cant": "a crash-point property of the fit", "anchors": ["solarwindpy/fitfunctions/core.py:FitFunction.make_fit"]}
{"id": "C100", "title": "LaTeX parameters of log-normal and CDF fits (violated)", "statement": "GaussianLn.TeX_popt and ExponentialCDF.set_TeX_info should work after every fit; both delegate to a parent attribute that does not exist, so they raise AttributeError whatever the state of the fit.", "quantifier": "all fit states", "why_tests_cant": "every state, including before and after fitting", "anchors": ["solarwindpy/fitfunctions/gaussians.py:GaussianLn.TeX_popt"]}
{"id": "C101", "title": "Moyal curve and reported formulas (violated)", "statement": "Moyal should be an asymmetric peak and every class should report the formula it fits. The Moyal curve is symmetric about mu for all parameters, its reported LaTeX formula differs from the curve at the peak for every A != 0, and that of GaussianLn lacks a minus sign (differs at every x != e^m).", "quantifier": "all parameters", "why_tests_cant": "claims over all parameters", "anchors": ["solarwindpy/fitfunctions/moyal.py:Moyal", "solarwindpy/fitfunctions/gaussians.py:GaussianLn.TeX_function"]}
{"id": "C102", "title": "Initial guesses with one-sided data (violated)", "statement": "The initial guess of every hinge-type function should be usable for all data. With fewer than two points on one side of the guessed transition TwoLine and Saturation guess NaN, HingeAtPoint guesses a curve that is NaN everywhere and HingeMin one that is -inf below the hinge.", "quantifier": "all data sets with < 2 points on one side", "why_tests_cant": "quantifies over all data", "anchors": ["solarwindpy/fitfunctions/hinge.py:TwoLine.p0", "solarwindpy/fitfunctions/hinge.py:Saturation.p0", "solarwindpy/fitfunctions/hinge.py:HingeAtPoint.p0", "solarwindpy/fitfunctions/hinge.py:HingeMin.p0"]}
{"id": "C103", "title": "User guesses are used (violated)", "statement": "Guesses given to the constructor should influence the initial guess. guess_s of Saturation and guess_yh of HingeAtPoint never do, and guess_y0/guess_y1 of HeavySide only if both are given.", "quantifier": "all data and guesses", "why_tests_cant": "independence over all inputs", "anchors": ["solarwindpy/fitfunctions/hinge.py:Saturation.p0", "solarwindpy/fitfunctions/hinge.py:HingeAtPoint.p0", "solarwindpy/fitfunctions/heaviside.py:HeavySide.p0"]}
{"id": "C104", "title": "Flat plateaus (violated)", "statement": "A hinge with a flat segment (slope exactly 0) is a legitimate curve; HingeAtPoint with a zero slope and Saturation with theta = arctan(m1) are NaN at every x.", "quantifier": "all x and other parameters", "why_tests_cant": "every x", "anchors": ["solarwindpy/fitfunctions/hinge.py:HingeAtPoint.function", "solarwindpy/fitfunctions/hinge.py:Saturation.function"]}
{"id": "C105", "title": "Initial guess of Gaussian fits", "statement": "For non-negative data with positive sum the initial guess of Gaussian and GaussianNormalized is finite: mean within the range of x, width at most that range, height the largest datum, and the normalised guess has that height at its centre.", "quantifier": "all data sets", "why_tests_cant": "inequality over all data", "anchors": ["solarwindpy/fitfunctions/gaussians.py:Gaussian.p0", "solarwindpy/fitfunctions/gaussians.py:GaussianNormalized.p0"]}
{"id": "C106", "title": "Extra annotation lines are the caller's (violated)", "statement": "A list passed as additional_info should be left alone and any iterable accepted. Building the annotation overwrites the caller's list with the delimited lines, and any non-empty tuple is rejected.", "quantifier": "all lists and tuples", "why_tests_cant": "aliasing effect over all lists", "anchors": ["solarwindpy/fitfunctions/tex_info.py:TeXinfo._check_and_add_math_escapes", "solarwindpy/fitfunctions/tex_info.py:TeXinfo._add_additional_info"]}
{"id": "C107", "title": "Translation of parameter names to LaTeX", "statement": "With distinct, fresh LaTeX names every parameter keeps its value under its translated name and none is lost; but a LaTeX name equal to another parameter's name silently drops that parameter.", "quantifier": "all parameter dictionaries and translations", "why_tests_cant": "induction over the list of renamings", "anchors": ["solarwindpy/fitfunctions/tex_info.py:TeXinfo.set_TeX_argnames"]}
{"id": "C108", "title": "Stability analysis runs (violated)", "statement": "StabilityCondition and the contour plot should work with the supported pandas versions (>= 2.0); both use iteritems, removed in 2.0, so every construction and every plot raises.", "quantifier": "all data, growth rates, kinds", "why_tests_cant": "every input fails", "anchors": ["solarwindpy/instabilities/verscharen2016.py:StabilityCondition._calc_is_unstable", "solarwindpy/instabilities/verscharen2016.py:StabilityContours.plot_contours", "pyproject.toml"]}
{"id": "C109", "title": "Missing measurements and legend of the stability plot (violated)", "statement": "A row with missing beta or anisotropy should not be classified and legend rows should match their lines. Missing rows get the bin 'Stable', and the legend rows labelled AIC, FMW, MM hold the MM, AIC, FMW lines.", "quantifier": "all rows; all lines", "why_tests_cant": "every missing-data pattern", "anchors": ["solarwindpy/instabilities/verscharen2016.py:StabilityCondition._calc_stability_bin", "solarwindpy/instabilities/verscharen2016.py:StabilityContours._add_table_legend"]}
{"id": "C110", "title": "A loader object can be reused (violated)", "statement": "Loading repeatedly through one loader should behave like separate runs. The creation date is read once at construction: a second load on the same day downloads again, and loads on two successive days leave two dated files, after which every new run ends in AssertionError.", "quantifier": "all dates and sources", "why_tests_cant": "history property", "anchors": ["solarwindpy/solar_activity/base.py:DataLoader.__init__", "solarwindpy/solar_activity/base.py:DataLoader.maybe_update_stale_data"]}
{"id": "C111", "title": "The cache works in any directory and at any clock time (violated)", "statement": "If the directory path contains an eight-digit group, every run after the first successful one fails with AssertionError (unless the date coincides); a file dated in the future is neither replaced nor used (FileNotFoundError), and a load straddling midnight fails.", "quantifier": "all paths, dates, histories", "why_tests_cant": "history and path property", "anchors": ["solarwindpy/solar_activity/base.py:DataLoader.get_data_ctime", "solarwindpy/solar_activity/base.py:DataLoader.load_data"]}
{"id": "C112", "title": "Default cut by interval (violated)", "statement": "cut_spec_by_interval with the default kind=None ('all available options') should assign intervals; a cycle overlaps its own edges, so it raises ValueError for every non-empty well-formed table and every epoch.", "quantifier": "all tables and epochs", "why_tests_cant": "every input fails", "anchors": ["solarwindpy/solar_activity/base.py:IndicatorExtrema.cut_spec_by_interval"]}
{"id": "C113", "title": "Edge labels agree with the intervals", "statement": "For a cycle with recorded maximum, the edge label of each datum is Rise/Fall exactly if the datum lies in the Rise/Fall interval. Violated for the cycle in progress: no datum gets a label although the intervals call it rising until today.", "quantifier": "all tables, dates, data", "why_tests_cant": "agreement of two computations", "anchors": ["solarwindpy/solar_activity/sunspot_number/sidc.py:SIDC.calculate_edge", "solarwindpy/solar_activity/base.py:IndicatorExtrema.calculate_intervals"]}
{"id": "C114", "title": "Extremum labels", "statement": "With recorded maximum each measured datum gets exactly one label: >= half the cycle's largest value: maximum of its cycle; below: minimum of its own cycle up to the maximum date, of the next after it. Violated: documented as split at the cycle mean; without recorded maximum low data get none.", "quantifier": "all cycles and values", "why_tests_cant": "real-valued", "anchors": ["solarwindpy/solar_activity/sunspot_number/sidc.py:SIDC.calculate_extrema_kind"]}
{"id": "C115", "title": "Default threshold (violated)", "statement": "The documented default threshold np.nanmedian never works: for every index name outside the built-in table construction raises TypeError whatever the data; numbers and Python functions work.", "quantifier": "all names and data", "why_tests_cant": "every input fails", "anchors": ["solarwindpy/solar_activity/lisird/extrema_calculator.py:ExtremaCalculator.set_threshold", "solarwindpy/solar_activity/lisird/extrema_calculator.py:ExtremaCalculator.find_threshold_crossings"]}
{"id": "C116", "title": "One extremum per excursion", "statement": "If every excursion above/below the threshold lasts at least three samples the search returns exactly one extremum per excursion, alternating and of its kind. Violated: an excursion of exactly two samples anywhere raises AssertionError, one of a single sample yields a spurious extremum of the opposite kind.", "quantifier": "all series without missing values", "why_tests_cant": "unbounded series; group boundaries", "anchors": ["solarwindpy/solar_activity/lisird/extrema_calculator.py:ExtremaCalculator.find_threshold_crossings", "solarwindpy/solar_activity/lisird/extrema_calculator.py:ExtremaCalculator.cut_data_into_extrema_finding_intervals", "solarwindpy/solar_activity/lisird/extrema_calculator.py:ExtremaCalculator._find_extrema"]}
{"id": "C117", "title": "Extrema tables of series starting with a maximum (violated)", "statement": "Extrema found in a series are formatted as a table and used for intervals. If the first extremum is a maximum, the first row has no minimum and the interval computation raises ValueError for every such series; otherwise row i holds the i-th minimum and maximum.", "quantifier": "all extrema lists", "why_tests_cant": "unbounded lists", "anchors": ["solarwindpy/solar_activity/lisird/extrema_calculator.py:ExtremaCalculator.format_extrema", "solarwindpy/solar_activity/base.py:IndicatorExtrema.calculate_intervals"]}
{"id": "C118", "title": "Standard error of missing sunspot deviations (violated)", "statement": "A missing standard deviation (-1) should give a missing standard error. It does only for exactly one observation; otherwise the result is -inf (none) or -1/sqrt(n). Present deviations give s/sqrt(n).", "quantifier": "all counts and deviations", "why_tests_cant": "real-valued", "anchors": ["solarwindpy/solar_activity/sunspot_number/sidc.py:SIDCLoader.download_data", "solarwindpy/solar_activity/sunspot_number/sidc.py:SIDCLoader.convert_nans"]}
{"id": "C119", "title": "Bands about extrema", "statement": "One half-width gives symmetric, two asymmetric right-closed bands, one per extremum in order; any other number raises ValueError. Violated for close extrema: two extrema closer than the widths make every cut fail.", "quantifier": "all widths and extrema", "why_tests_cant": "unbounded lists", "anchors": ["solarwindpy/solar_activity/base.py:IndicatorExtrema.calculate_extrema_bands", "solarwindpy/solar_activity/base.py:IndicatorExtrema.cut_about_extrema_bands"]}
{"id": "C120", "title": "Duplicate and unordered download times", "statement": "After verify_monotonic_epoch each time occurs at most once, with the first value downloaded for it; apart from three times rejected by hand in the Penticton F10.7 series no time is lost, and the order is kept. Violated: order is not checked; distinct times in any order pass.", "quantifier": "all downloads", "why_tests_cant": "unbounded lists", "anchors": ["solarwindpy/solar_activity/lisird/lisird.py:LISIRDLoader.verify_monotonic_epoch"]}
{"id": "C121", "title": "Containment and range queries agree", "statement": "contains(t) implies that get_events_in_range(t,t) is not empty, and holds iff that query returns an event with a measured end. Violated converse: an event without measured end is returned by the range query for its 24 h fallback interval but never contains a time.", "quantifier": "all catalogues and times", "why_tests_cant": "agreement of two queries", "anchors": ["solarwindpy/solar_activity/icme/icmecat.py:ICMECAT.contains", "solarwindpy/solar_activity/icme/icmecat.py:ICMECAT.get_events_in_range"]}
{"id": "C122", "title": "Crash while caching the catalogue (violated)", "statement": "After a crash the next run should recover. The cache file is written in place: after a crash during the write every run of the next 30 days fails to read it, whatever the server, and never repairs it.", "quantifier": "all crash times and histories", "why_tests_cant": "crash points", "anchors": ["solarwindpy/solar_activity/icme/icmecat.py:ICMECAT._download", "solarwindpy/solar_activity/icme/icmecat.py:ICMECAT._try_load_cache"]}
{"id": "C123", "title": "Catalogue summary", "statement": "n_events and n_strict count all events and those with measured end; the date range starts at the earliest start and ends at the latest interval end, both attained by events.", "quantifier": "all catalogues", "why_tests_cant": "unbounded", "anchors": ["solarwindpy/solar_activity/icme/icmecat.py:ICMECAT.summary"]}
{"id": "C124", "title": "Fine bins below the rounding precision (violated)", "statement": "Automatic binning should work for any data. The edges are rounded to `bin_precision` decimals: if (range*10^p + 1) is below half the number of bins, construction raises ValueError; in the default configuration for every data set spanning less than 4.9e-4.", "quantifier": "all data, precisions, bin numbers", "why_tests_cant": "real-valued; pigeonhole over bins", "anchors": ["solarwindpy/plotting/agg_plot.py:AggPlot.calc_bins_intervals", "solarwindpy/plotting/agg_plot.py:AggPlot.make_cut"]}
{"id": "C125", "title": "Normalisation keys (violated in 1-D)", "statement": "Hist1D.set_axnorm should accept the documented 't' and 'd'. It accepts None and exactly the strings beginning with d/D, and raises AssertionError for 't'; Hist2D.set_axnorm accepts exactly c,r,t,d,cd,rd in any case.", "quantifier": "all strings", "why_tests_cant": "all strings", "anchors": ["solarwindpy/plotting/hist1d.py:Hist1D.set_axnorm", "solarwindpy/plotting/hist2d.py:Hist2D.set_axnorm"]}
{"id": "C126", "title": "Border of a 2-D histogram", "statement": "get_border gives for every column with a displayed cell the last displayed cell (top) and the first (bottom), with their values, and nothing for the other columns.", "quantifier": "all grids", "why_tests_cant": "unbounded", "anchors": ["solarwindpy/plotting/hist2d.py:Hist2D.get_border"]}
{"id": "C127", "title": "Taking data in ranges across x", "statement": "take_data_in_yrange_across_x returns the labels in ascending order, each once per half-open box containing its datum; with distinct labels and boxes sharing no datum each at most once and exactly for the data inside a box. Empty or reversed boxes raise AssertionError.", "quantifier": "all data and ranges", "why_tests_cant": "unbounded", "anchors": ["solarwindpy/plotting/hist1d.py:Hist1D.take_data_in_yrange_across_x", "solarwindpy/plotting/hist2d.py:Hist2D.take_data_in_yrange_across_x"]}
{"id": "C128", "title": "Clipping and value limits (violated)", "statement": "clip_data is documented to remove extreme values. Every non-missing datum (even infinite) is kept: those beyond the quantiles are counted in the quantile's bin; one-sided clipping ('l', 'u') raises AttributeError in Hist1D and clips both sides in Hist2D. alim hides exactly values outside the closed limits.", "quantifier": "all data, edges, quantiles", "why_tests_cant": "real-valued", "anchors": ["solarwindpy/plotting/agg_plot.py:AggPlot.clip_data", "solarwindpy/plotting/agg_plot.py:AggPlot.make_cut", "solarwindpy/plotting/hist2d.py:Hist2D.agg"]}
{"id": "C129", "title": "No PDF of means (violated)", "statement": "A density histogram with non-count aggregation should be refused. It is only for an explicit function; with the default and two different y values the density-normalised bin means are returned.", "quantifier": "all data", "why_tests_cant": "all data", "anchors": ["solarwindpy/plotting/hist1d.py:Hist1D.agg", "solarwindpy/plotting/agg_plot.py:AggPlot._agg_runner"]}
{"id": "C130", "title": "Logarithmic axes forget the sign", "statement": "On a logarithmic axis the subset handed back by get_subset_above_threshold is the absolute value of the input for every value incl. 0, NaN and infinities: the input is returned exactly for non-negative data (violated for negative).", "quantifier": "all values", "why_tests_cant": "real-valued", "anchors": ["solarwindpy/plotting/agg_plot.py:AggPlot.get_subset_above_threshold", "solarwindpy/plotting/hist1d.py:Hist1D.set_data", "solarwindpy/plotting/hist2d.py:Hist2D.set_data"]}
{"id": "C131", "title": "Data outside the adaptive mesh (violated)", "statement": "A datum outside every cell should simply be left out. Instead one such datum (every missing or infinite value, e.g. log10(0)) makes initialize_mesh raise TypeError and the density cell filter ValueError; if all data are inside both work and bin numbers are valid cell indices.", "quantifier": "all meshes, data, thread schedules", "why_tests_cant": "unbounded data and loop orders", "anchors": ["solarwindpy/plotting/spiral.py:SpiralMesh.build_cat", "solarwindpy/plotting/spiral.py:SpiralMesh.cell_filter"]}
{"id": "C132", "title": "Edges given by the caller are changed (violated)", "statement": "Edges passed as an array should be left alone. The caller's array gets its last edge replaced in place, so a second plot from the same array has a different, again 1 % larger, last edge.", "quantifier": "all edge arrays with positive maximum", "why_tests_cant": "aliasing, all arrays", "anchors": ["solarwindpy/plotting/spiral.py:SpiralPlot2D.calc_initial_bins"]}
{"id": "C133", "title": "Cell filter", "statement": "Without thresholds (or with zero ones) every cell is kept. A size quantile in (0,1] (even 1) always removes the largest cells, all cells if the areas are equal; every kept cell is smaller than every removed one. A density quantile always removes the cells of least density and keeps only cells denser than all removed ones; with both a cell must pass each. Thresholds outside [0,1] are ValueError.", "quantifier": "all meshes and quantiles", "why_tests_cant": "real-valued", "anchors": ["solarwindpy/plotting/spiral.py:SpiralMesh.cell_filter"]}
{"id": "C134", "title": "Joint legend", "statement": "joint_legend shows every label of every axis exactly once, in ascending order, each with the handle of its first occurrence.", "quantifier": "all axes and labels", "why_tests_cant": "unbounded", "anchors": ["solarwindpy/plotting/tools.py:joint_legend"]}
{"id": "C135", "title": "Sampling selected patches", "statement": "sample_data returns ascending labels of data inside the patches (left and lower border excluded), n per patch with enough data, at least one otherwise, and lists exactly the empty patches as failed; disjoint patches give no label twice; labels selected elsewhere are excluded if all of them occur in the data. Violated: one foreign label disables the exclusion completely.", "quantifier": "all data, patches, random generators", "why_tests_cant": "arbitrary random choices", "anchors": ["solarwindpy/plotting/select_data_from_figure.py:SelectFromPlot2D.sample_data"]}
{"id": "C136", "title": "Species in labels", "statement": "In any list of documented species codes joined by a character that is in no code, every code is replaced by its own LaTeX form, never by that of a shorter code, and separators stay. Violated for undocumented species: 'Ca' becomes carbon followed by alpha.", "quantifier": "all lists of species", "why_tests_cant": "unbounded strings; order of regex alternatives", "anchors": ["solarwindpy/plotting/labels/base.py:_run_species_substitution", "solarwindpy/plotting/labels/base.py:TeXlabel.make_species"]}
{"id": "C137", "title": "Label descriptions (violated)", "statement": "A description is shown above the label. Set after construction it is ignored by TeXlabel, while for all other labels it changes the text and so the hash, losing dictionary keys.", "quantifier": "all labels and descriptions", "why_tests_cant": "all strings, mutation", "anchors": ["solarwindpy/plotting/labels/base.py:Base.set_description", "solarwindpy/plotting/labels/base.py:TeXlabel.build_label"]}
{"id": "C138", "title": "Text constituents (violated)", "statement": "Probability, CountOther, MathFcn and AbsoluteValue accept a str constituent by their type check; for every str construction raises AttributeError. Comparison labels do accept text.", "quantifier": "all strings", "why_tests_cant": "all strings", "anchors": ["solarwindpy/plotting/labels/special.py:Probability", "solarwindpy/plotting/labels/special.py:MathFcn", "solarwindpy/plotting/labels/special.py:AbsoluteValue", "solarwindpy/plotting/labels/special.py:ComparisonLable"]}
{"id": "C139", "title": "Absolute value labels", "statement": "AbsoluteValue keeps the units of its label. Violated for labels without units (manual labels, dates, Carrington rotation): the object is built but its text raises AttributeError.", "quantifier": "all labels", "why_tests_cant": "all labels", "anchors": ["solarwindpy/plotting/labels/special.py:AbsoluteValue"]}
{"id": "C140", "title": "Save paths of different labels (violated)", "statement": "Different labels should be saved under different paths. Paths ignore commas, so species pairs and run-together names collide for every quantity; Probability with \\lt and \\gt collide for every threshold.", "quantifier": "all labels and thresholds", "why_tests_cant": "all strings", "anchors": ["solarwindpy/plotting/labels/base.py:TeXlabel._build_one_label", "solarwindpy/plotting/labels/special.py:Probability._build_path"]}
{"id": "C141", "title": "Comparison labels", "statement": "A comparison is refused iff both constituents have units and they differ, otherwise it has the common units; the clean-up loop ends and leaves no doubled thin space; undocumented operation names raise TypeError. Violated: a dimensionless quantity cannot be compared with a dimensionless ratio; a product keeps the units of one factor.", "quantifier": "all labels", "why_tests_cant": "loop termination for all strings", "anchors": ["solarwindpy/plotting/labels/special.py:ComparisonLable", "solarwindpy/plotting/labels/special.py:Xcorr._build_tex"]}
{"id": "C142", "title": "Frequency units (violated)", "statement": "Units of a frequency should read (...)^{-1}; for every interval they read (...)^-1.", "quantifier": "all intervals", "why_tests_cant": "all strings", "anchors": ["solarwindpy/plotting/labels/datetime.py:Frequency.units"]}
{"id": "C143", "title": "Label normalisation and distance units", "statement": "TeXlabel accepts axnorm None and c,r,t,d in any case, else AssertionError (also for the histogram's cd, rd); Distance2Sun accepts exactly rs, re, au, m, km in any case, else NotImplementedError.", "quantifier": "all strings", "why_tests_cant": "all strings", "anchors": ["solarwindpy/plotting/labels/base.py:TeXlabel.set_axnorm", "solarwindpy/plotting/labels/special.py:Distance2Sun.set_units"]}
{"id": "C144", "title": "Latest version after a release candidate (violated)", "statement": "bump_version should continue from the latest release. Git sorts a release before its own pre-releases, so after v1.0.0 is released following v1.0.0-rc1 the base is the candidate, and 'patch' asks for the existing tag and fails.", "quantifier": "all tag sets, all orders that put a prefix first", "why_tests_cant": "all tag histories", "anchors": ["scripts/bump_version.py:get_latest_version"]}
{"id": "C145", "title": "Waiting for the index: missed publications (violated)", "statement": "No request is made after the last sleep: with an interval at least the time allowed the index is asked once; interval 0 never ends if requests fail at once; a negative interval raises ValueError; a version the index spells differently is never found.", "quantifier": "all schedules", "why_tests_cant": "all schedules of replies and delays", "anchors": ["scripts/wait_for_pypi.py:wait_for_pypi", "scripts/wait_for_pypi.py:check_pypi_availability"]}
{"id": "C146", "title": "Conda environment file", "statement": "generate_environment refuses an existing file without overwrite; otherwise it writes one dependency per non-blank, non-comment line in order, a pinned line giving exactly its conda name. Violated: option and hash lines of the lock file are written as packages.", "quantifier": "all files", "why_tests_cant": "all line lists", "anchors": ["scripts/requirements_to_conda_env.py:generate_environment"]}
{"id": "C147", "title": "Recipe update", "statement": "update_meta_yaml replaces exactly the version and sha256 lines, keeps all others and the number of lines; the last update wins and repeating it changes nothing. Violated: a recipe without recognised lines is left unchanged with success reported; every sha256 line gets the same hash.", "quantifier": "all files, versions, hashes", "why_tests_cant": "all texts", "anchors": ["scripts/update_conda_feedstock.py:CondaFeedstockUpdater.update_meta_yaml"]}
{"id": "C148", "title": "Feedstock update", "statement": "update_feedstock succeeds only for a final version confirmed by the index with exactly that text and hashed; it opens at most one issue, none in a dry run, quoting a commit only if verified. Violated: --no-issue, a failed issue and a hash mismatch with GitHub have no effect; the issue never contains the dependency comparison.", "quantifier": "all answers of the outside world", "why_tests_cant": "all combinations of external answers", "anchors": ["scripts/update_conda_feedstock.py:CondaFeedstockUpdater.update_feedstock", "scripts/update_conda_feedstock.py:CondaFeedstockUpdater.create_tracking_issue"]}
{"id": "C149", "title": "Pull request references", "statement": "After 'closed' no reference to the request is unmarked and a second run changes nothing and says so; after 'opened' no placeholder remains; nothing is written when there is nothing to replace. Violated: closing n also breaks references to numbers starting with the digits of n.", "quantifier": "all file contents and numbers", "why_tests_cant": "all texts", "anchors": ["scripts/update_pr_references.py:replace_placeholder", "scripts/update_pr_references.py:mark_closed"]}
{"id": "C150", "title": "Dependency comparison", "statement": "With each package named once per list there is one row per package, marked different, added or missing exactly when it is; names end at >=, < or ==. Violated: packages constrained with ~= are shown as added and missing instead of different.", "quantifier": "all dependency lists", "why_tests_cant": "all lists", "anchors": ["scripts/compare_feedstock_deps.py:display_side_by_side"]}
{"id": "C151", "title": "Release readiness", "statement": "The script exits 0 iff all nine checks hold, otherwise with the number of failed checks; the changelog passes iff nothing stands between the Unreleased heading and the next section. Violated: an Unreleased section that is last in the file passes with any content.", "quantifier": "all repository states and changelogs", "why_tests_cant": "all texts", "anchors": ["scripts/check_release_ready.py:main", "scripts/check_release_ready.py:check_changelog"]}
{"id": "C152", "title": "Initial guesses are exact on noise-free data", "statement": "With the true transition as guess and at least two points (consecutive abscissae different) on each side, noise-free two-line data with non-zero slopes give the exact parameters as initial guess of TwoLine, HingeMin, HingeMax and Saturation (angle for 1 + m1 m2 > 0), the exact slopes for HingeAtPoint (height: the datum nearest the hinge); HeavySide guesses medians of the data above and below the step, exact for a noise-free step. Data sets with fewer points than parameters, and only these, are refused.", "quantifier": "all data sets on two lines; all data for the step", "why_tests_cant": "all sizes and samples", "anchors": ["solarwindpy/fitfunctions/hinge.py:TwoLine.p0", "solarwindpy/fitfunctions/hinge.py:Saturation.p0", "solarwindpy/fitfunctions/hinge.py:HingeMin.p0", "solarwindpy/fitfunctions/hinge.py:HingeAtPoint.p0", "solarwindpy/fitfunctions/heaviside.py:HeavySide.p0"]}
{"id": "C153", "title": "Initial amplitude of log-normal fits (violated)", "statement": "The initial amplitude of GaussianLn should be the height of the data. It is the logarithm of the largest datum, smaller than it for every positive data set, and for data not exceeding 1 the guessed curve is nowhere positive.", "quantifier": "all positive data sets", "why_tests_cant": "all data sets", "anchors": ["solarwindpy/fitfunctions/gaussians.py:GaussianLn.p0"]}
{"id": "C154", "title": "Setting plot labels", "statement": "An accepted set_labels sets exactly the labels named and keeps the others; a rejected one raises (ValueError for a z label on a 1-D histogram, KeyError for an unknown axis) and changes nothing; after any history each label is the last one accepted.", "quantifier": "all plots and histories of calls", "why_tests_cant": "all histories", "anchors": ["solarwindpy/plotting/base.py:Base.set_labels", "solarwindpy/plotting/hist1d.py:Hist1D.set_labels"]}
{"id": "C155", "title": "Automatic save path follows the plot (violated for scales and normalisation)", "statement": "After set_labels or set_path('auto') the path is class/x/y[/z]/scales (plus the normalisation). Violated: set_log and set_axnorm never update it, so the path contradicts the plot until the labels are set again.", "quantifier": "all plots and histories", "why_tests_cant": "all histories", "anchors": ["solarwindpy/plotting/base.py:Base.set_path", "solarwindpy/plotting/base.py:Base.set_log", "solarwindpy/plotting/hist1d.py:Hist1D.set_path"]}
{"id": "C156", "title": "Count labels name the normalisation in force", "statement": "Every constructed histogram's count label names its normalisation and keeps doing so through any history, rejected calls included, unless the label object is shared (violated: normalising one plot renames the other). Violated: Hist1D(axnorm='density') without y raises AssertionError although only the first letter should count.", "quantifier": "all histograms and histories", "why_tests_cant": "all histories, aliasing", "anchors": ["solarwindpy/plotting/hist1d.py:Hist1D.set_axnorm", "solarwindpy/plotting/hist2d.py:Hist2D.set_axnorm", "solarwindpy/plotting/labels/special.py:Count"]}
{"id": "C157", "title": "Automatic save paths are distinct", "statement": "For one class and plain text labels the automatic path determines labels and scales. Violated otherwise: blank and dash collide, so do a missing label and 'None'; all new scatter plots share one path. The path after construction is given for each class.", "quantifier": "all labels", "why_tests_cant": "all pairs of plots", "anchors": ["solarwindpy/plotting/base.py:Base.set_path", "solarwindpy/plotting/scatter.py:Scatter"]}
{"id": "C158", "title": "Orbit legs", "statement": "For an orbit of at least two intervals (l, r] without common times, in whatever order given, a measurement is Inbound exactly during the earliest, Outbound exactly during the second, and in no leg otherwise; a count cell holds the number of measurements of that leg in that bin. No IntervalIndex: TypeError; common times: ValueError; fewer than two intervals: IndexError.", "quantifier": "all orbits, times, data", "why_tests_cant": "all orbits and times", "anchors": ["solarwindpy/plotting/orbits.py:OrbitPlot.set_orbit", "solarwindpy/plotting/orbits.py:OrbitPlot.make_cut", "solarwindpy/plotting/orbits.py:OrbitPlot.grouped"]}
{"id": "C159", "title": "Normalisation by orbit leg (violated for densities and limits)", "statement": "Column, row and total normalisation of an orbit histogram equal those of each leg alone. Violated: the 'd' density divides by the cell area twice (correct only for equal cells), the conditional densities by the width twice; the value limits are applied before the last normalisation, so values above the limit are drawn.", "quantifier": "all grids and edges", "why_tests_cant": "all grids", "anchors": ["solarwindpy/plotting/orbits.py:OrbitHist2D.agg", "solarwindpy/plotting/hist2d.py:Hist2D._axis_normalizer"]}
{"id": "C160", "title": "Colour bars and orbit plots (violated)", "statement": "Without cbar_kwargs every colour bar goes to its own plot's axes, with ax or cax to those, with both ValueError. Violated: a dictionary naming neither is changed, later plots using it put their colour bar on the first plot's axes; orbit plots with a colour bar (the default) always raise. The leg is named by the first letter in either case; the two halves of an in/out plot mirror each other.", "quantifier": "all sequences of plots, all texts", "why_tests_cant": "all sequences", "anchors": ["solarwindpy/plotting/base.py:CbarMaker._make_cbar", "solarwindpy/plotting/scatter.py:Scatter.make_plot", "solarwindpy/plotting/orbits.py:OrbitHist2D.make_one_plot", "solarwindpy/plotting/orbits.py:OrbitHist2D.make_in_out_plot"]}
{"id": "C161", "title": "Scatter plot data", "statement": "A scatter plot has exactly one point per label at which x, y and z (if given) are measured, with those values; ValueError iff there is none. Points are coloured, with a colour bar if asked for, iff two differ in z. Violated: with clip_data=True it can never be drawn.", "quantifier": "all series", "why_tests_cant": "all series and alignments", "anchors": ["solarwindpy/plotting/base.py:PlotWithZdata.set_data", "solarwindpy/plotting/scatter.py:Scatter.make_plot"]}
{"id": "C162", "title": "Data above a contour (violated)", "statement": "id_data_above_contour labels a datum with its x bin exactly if its y lies between cells of that column reaching the level, both included: no datum in a cell reaching the level is missed, but data in lower cells between are labelled too; a column not reaching the level makes the call fail.", "quantifier": "all grids, levels, data", "why_tests_cant": "all grids", "anchors": ["solarwindpy/plotting/hist2d.py:Hist2D.id_data_above_contour"]}
{"id": "C163", "title": "Limited colour scale (violated)", "statement": "limit_color_norm sets open limits to the 1% and 99% quantiles of the z data, keeps given ones, and does nothing for column and row normalisation. Violated: for count histograms both limits become 1, whatever is drawn; without or with total normalisation it raises AttributeError.", "quantifier": "all data and norms", "why_tests_cant": "all data", "anchors": ["solarwindpy/plotting/hist2d.py:Hist2D._limit_color_norm", "solarwindpy/plotting/hist2d.py:Hist2D.make_plot"]}
{"id": "C164", "title": "Label units match the values (violated for heat flux and entropy)", "statement": "With the default units, label units of field, densities, speeds, pressures, temperature, beta, Coulomb logarithm, collision frequency and age are those the values are computed in; derived factors follow the ones given. Violated: a heat flux in the labelled mW/cm^2 is off by 10^8; a specific entropy in the labelled eV cm^2 m_p^(-5/3) is about 11% of the true value.", "quantifier": "all plasmas, all given unit factors", "why_tests_cant": "agreement of two modules for every value", "anchors": ["solarwindpy/core/units_constants.py:Units", "solarwindpy/plotting/labels/base.py:_trans_units", "solarwindpy/core/plasma.py:Plasma.heat_flux", "solarwindpy/core/plasma.py:Plasma.specific_entropy"]}
{"id": "C165", "title": "Species tables agree", "statement": "Charge numbers, charges, masses in kg, in proton masses and in atomic mass units know the same ten species and give each those of its particle; the polytropic indices are those of 1, 2 and 3 degrees of freedom.", "quantifier": "all species names", "why_tests_cant": "all names, for any values of the constants", "anchors": ["solarwindpy/core/units_constants.py:_m_in_mp", "solarwindpy/core/units_constants.py:_charges", "solarwindpy/core/units_constants.py:_masses"]}
{"id": "C166", "title": "Save path of a fit plot (violated for the y scale)", "statement": "The path is FFPlot / function name / x label / y label / z label if any / scales, always of the labels, name and scales last accepted: an unknown keyword is refused (KeyError for labels, TypeError for scales) and changes nothing. Plots that differ in name, text labels or x scale have different paths. Violated: the y scale is always written logY.", "quantifier": "all histories of setter calls", "why_tests_cant": "all histories, all label texts", "anchors": ["solarwindpy/fitfunctions/plots.py:FFPlot.path", "solarwindpy/fitfunctions/plots.py:FFPlot.set_labels", "solarwindpy/fitfunctions/plots.py:FFPlot.set_log"]}
{"id": "C167", "title": "Marker spacing of fit plots", "statement": "Below ten points every point is marked; from ten on the spacing is the power of ten that leaves between 10 and 100 marks, and it grows with the number of points.", "quantifier": "all numbers of points", "why_tests_cant": "unbounded sizes", "anchors": ["solarwindpy/fitfunctions/plots.py:FFPlot._estimate_markevery"]}
{"id": "C168", "title": "Residual curves (violated)", "statement": "The kind, in any case, says which residuals are drawn: fitted minus observed, the optimiser's own (divided by the uncertainties; they agree iff the uncertainty is one or the residual zero), or both, in percent of the fitted value if asked for. Violated: an unknown kind silently draws nothing; with the default kind a colour, marker or line style raises TypeError; a label starting with a LaTeX command loses its backslash for single kinds; resid_pct is honoured only by the first plot made with the same dictionary.", "quantifier": "all data, kinds, labels, styles, numbers of plots", "why_tests_cant": "all inputs", "anchors": ["solarwindpy/fitfunctions/plots.py:FFPlot.plot_residuals", "solarwindpy/fitfunctions/plots.py:FFPlot.residuals", "solarwindpy/fitfunctions/plots.py:FFPlot.plot_raw_used_fit_resid"]}
{"id": "C169", "title": "Uncertainty window of fit plots", "statement": "The band around the data is centred on each observation, twice the uncertainty wide, contains the observation iff the uncertainty is not negative, collapses onto the data without weights, and has gaps exactly where the observation or its uncertainty is missing.", "quantifier": "all data and weights", "why_tests_cant": "all arrays", "anchors": ["solarwindpy/fitfunctions/plots.py:FFPlot.plot_raw", "solarwindpy/fitfunctions/plots.py:FFPlot.plot_used"]}
{"id": "C170", "title": "Covariance of the fit parameters", "statement": "The reported covariance is symmetric and positive semidefinite, and the uncertainties are the real square roots of its diagonal; for a Jacobian of full rank it is the inverse of JtJ times the robust chi-square per degree of freedom, for exactly degenerate parameters the Moore-Penrose inverse; it does not change when all residuals are rescaled. With no more observations than parameters all uncertainties are infinite.", "quantifier": "all Jacobians of any size, all costs", "why_tests_cant": "all matrices", "anchors": ["solarwindpy/fitfunctions/core.py:FitFunction._calc_popt_pcov_psigma_chisq"]}
{"id": "C171", "title": "What a fit object offers when (violated)", "statement": "Over every history of fits, new observations and rebuilds: before the first success parameters, annotation and plotter raise AttributeError and chisq_dof is None; afterwards parameters, annotation and plotter are those of the last success. Violated: the annotation meant for failed fits cannot be built; after set_fit_obs annotation and plotter keep showing the old data.", "quantifier": "all histories", "why_tests_cant": "all histories", "anchors": ["solarwindpy/fitfunctions/core.py:FitFunction.build_TeX_info", "solarwindpy/fitfunctions/core.py:FitFunction.build_plotter", "solarwindpy/fitfunctions/core.py:FitFunction.make_fit"]}
{"id": "C172", "title": "Circular dependency search (violated: not all are reported)", "statement": "Every circular dependency reported is one (distinct modules, each importing the next, the last the first), begins with its smallest name, and is reported once even up to rotation; one is reported iff the import graph has one (of more than one module, for the fixed script), whatever order modules and sets are visited in. Violated: not every circular dependency is reported, and which are depends on set order.", "quantifier": "all finite import graphs, all visiting orders", "why_tests_cant": "all graphs, recursion of any depth", "anchors": ["scripts/analyze_imports_simple.py:SimpleDependencyAnalyzer.find_circular_dependencies_dfs", "scripts/analyze_imports_fixed.py:DependencyAnalyzer.find_circular_dependencies_dfs"]}
{"id": "C173", "title": "Import resolution of the analysis scripts (violated)", "statement": "An edge is recorded exactly for each import statement that names a module and resolves to a scanned module; relative imports of ordinary modules follow Python's rule. Violated: in a package's __init__ they resolve one package too high; 'from . import x' never counts; the simple script records no dependency and so reports no cycle for any package without a part named solarwindpy....", "quantifier": "all packages and import statements", "why_tests_cant": "all inputs", "anchors": ["scripts/analyze_imports_simple.py:SimpleDependencyAnalyzer._resolve_import", "scripts/analyze_imports_fixed.py:DependencyAnalyzer._resolve_import"]}
{"id": "C174", "title": "Values are printed to the precision of their uncertainty (violated for small values)", "statement": "A parameter not smaller in decades than its uncertainty is printed to the uncertainty's first digit: as many decimals as decades lie between, at most half a unit of that digit off; the uncertainty to one digit. Zero uncertainty counts as order one; infinite or missing uncertainty gives four digits; a missing value with a finite uncertainty raises ValueError. Violated: a value smaller than its uncertainty is printed with more decimals the smaller it is.", "quantifier": "all finite and non-finite values and uncertainties", "why_tests_cant": "all reals", "anchors": ["solarwindpy/fitfunctions/tex_info.py:TeXinfo.val_uncert_2_string", "solarwindpy/fitfunctions/tex_info.py:TeXinfo._calc_precision"]}
{"id": "C175", "title": "Power-of-ten notation keeps the numbers (violated for formulas)", "statement": "convert_pow_10 turns each printed number of a parameter line into the same mantissa times ten to the same exponent, one closing brace each, nan and inf kept; lines do not affect each other; plain text lines are kept. Violated: e-, e+, -0 and +0 are rewritten in the formula too.", "quantifier": "all names, values, uncertainties, formulas", "why_tests_cant": "all texts", "anchors": ["solarwindpy/fitfunctions/tex_info.py:TeXinfo._build_fit_parameter_info"]}
{"id": "C176", "title": "Simplified numbers keep their value (violated)", "statement": "simplify_info_for_paper shows k = number, trailing zeros and point dropped, with the same value for 1e-4 <= |x| < 1e16; lines that are no numbers are kept. Violated: in exponent notation zeros of the exponent are dropped too, so exactly for exponents divisible by ten another number is shown (1e-10 as 1e-1).", "quantifier": "all decimals, all lines", "why_tests_cant": "all numbers", "anchors": ["solarwindpy/fitfunctions/tex_info.py:TeXinfo._simplify_for_paper"]}
{"id": "C177", "title": "Naming parameters in the annotation (violated)", "statement": "set_TeX_argnames accepts names iff each is a fitted parameter and occurs in the text of the initial-guess table, else ValueError and the names stay. Violated: it cannot be repeated: once renamed, the original name is no longer in the table and the same call raises.", "quantifier": "all parameter names and histories of two calls", "why_tests_cant": "all names", "anchors": ["solarwindpy/fitfunctions/tex_info.py:TeXinfo.set_TeX_argnames", "solarwindpy/fitfunctions/tex_info.py:TeXinfo.initial_guess_info"]}
{"id": "C178", "title": "Log-normal conversion gives the moments (violated for base ten)", "statement": "For data whose natural logarithm is normal with mean m and standard deviation s, normal_parameters(m, s) gives exactly the mean and the standard deviation of the data, the same numbers as the Gaussian-ln fit's own conversion. Violated: the documented claim that the formulas hold for base-ten logarithms too; there the mean is right only if m = -(ln 10 + 1) s^2 / 2.", "quantifier": "all real m and s", "why_tests_cant": "all reals; an integral against the normal law", "anchors": ["solarwindpy/tools/__init__.py:normal_parameters"]}
{"id": "C179", "title": "Initial guess of the composite fits (violated: depends on the origin)", "statement": "The guess of a Gaussian cut off at a position is centre, spread and height of the data beyond the position, with the centre beyond it; a plateau below is guessed by the mean of the data there, zero without any; no data beyond raises ValueError. The Gaussian-plus-step guess puts the step at three quarters of the data centre and uses the data beyond. Violated: it depends on the origin of the abscissa; any data moved far enough to the left have a guess with missing centre and width.", "quantifier": "all data with non-negative ordinates, all positions, all shifts", "why_tests_cant": "all data sets of any size", "anchors": ["solarwindpy/fitfunctions/composite.py:GaussianPlusHeavySide.p0", "solarwindpy/fitfunctions/composite.py:GaussianTimesHeavySide.p0", "solarwindpy/fitfunctions/composite.py:GaussianTimesHeavySidePlusHeavySide.p0"]}
{"id": "C180", "title": "Initial guess of the saturation fit (violated: depends on the unit)", "statement": "On noise-free saturation data with the true hinge as guess the guess is exact; with too few points on a side the intercept falls back to the smallest abscissa and the plateau slope to zero. Violated: the steepness threshold is absolute, so in a unit of the ordinate large enough the intercept guess is the smallest abscissa. The intercepts reported for a hinge at a point are the zeros of its lines.", "quantifier": "all noise-free data, all units; polyfit is any least-squares slope", "why_tests_cant": "all data sets and units", "anchors": ["solarwindpy/fitfunctions/hinge.py:HingeSaturation.p0", "solarwindpy/fitfunctions/hinge.py:HingeAtPoint.x_intercepts"]}
{"id": "C181", "title": "Initial guess of exponential, power-law and Moyal fits (violated)", "statement": "The guess has the highest datum as height (exponential, Moyal) and centre and spread of the data (Moyal); power laws start from the identity; too few data are refused. Violated: the exponential guess is exact only for rate one and data from zero on; the cumulative rate guess grows with the ordinate unit and ignores the abscissa unit; the guessed Moyal curve reaches less than 90 % of the height it was given.", "quantifier": "all data", "why_tests_cant": "all data sets of any size", "anchors": ["solarwindpy/fitfunctions/exponentials.py:Exponential.p0", "solarwindpy/fitfunctions/exponentials.py:ExponentialPlusC.p0", "solarwindpy/fitfunctions/exponentials.py:ExponentialCDF.p0", "solarwindpy/fitfunctions/power_laws.py:PowerLaw.p0", "solarwindpy/fitfunctions/moyal.py:Moyal.p0"]}
{"id": "C182", "title": "Binning argument of histograms (violated)", "statement": "A positive number of bins gives every axis that many bins, a smaller one is refused; a sequence of edges bins every axis with these edges, and one entry per axis bins each axis with its own. Violated: a sequence as long as the number of axes is never edges: in two dimensions the two edges of a single bin are a TypeError if floats, a ValueError if the first integer is below one, and otherwise the numbers of bins of the axes.", "quantifier": "all binning arguments, axes and data", "why_tests_cant": "all arguments", "anchors": ["solarwindpy/plotting/agg_plot.py:AggPlot.calc_bins_intervals"]}
{"id": "C183", "title": "Projection of a 2-D histogram (violated)", "statement": "Projected onto an axis, a count histogram without limits gives the sums of its columns (rows): the marginal counts, with the bins of that axis; other axis names are refused. Violated: with limits on counts or values a datum of a hidden cell is projected as soon as its column and row show anything, so the projection exceeds the sum of the displayed cells; and the projected dependent values are y as measured within the binned range for x, but log10 x, within the range or not, for y.", "quantifier": "all histograms of any size, limits, axes", "why_tests_cant": "sums over all data sets", "anchors": ["solarwindpy/plotting/hist2d.py:Hist2D.project_1d", "solarwindpy/plotting/agg_plot.py:AggPlot.get_plotted_data_boolean_series"]}
{"id": "C184", "title": "Geometry and contour levels of drawn histograms (violated)", "statement": "A drawn rectangle (bin) holds exactly the data counted in it, lower edge excluded; on log axes in terms of the modulus, zero in none. Drawn centres lie strictly inside, at the midpoint or geometric mean; the drawn array has one line per y bin; missing cells are masked; curve points are (centre, value), exchanged when transposed. Default contour levels exist for every accepted normalisation and ascend. Violated: those of densities are absolute numbers, so that for some units of the axis all cells lie below the lowest and for others all populated cells above the highest.", "quantifier": "all edges, data, grids, units", "why_tests_cant": "all data and units", "anchors": ["solarwindpy/plotting/hist2d.py:Hist2D.make_plot", "solarwindpy/plotting/hist2d.py:Hist2D._maybe_convert_to_log_scale", "solarwindpy/plotting/hist2d.py:Hist2D._get_contour_levels", "solarwindpy/plotting/hist1d.py:Hist1D.make_plot"]}
{"id": "C185", "title": "Normalising a whole sunspot series", "statement": "For disjoint cycles and distinct times, the normalised column holds, for a row of a cycle, its value scaled with the values of exactly that cycle, whatever the order of the rows, and is missing for a row in no cycle; the values of one cycle do not depend on the data of others; divided by a positive maximum they are at most 1, and 1 exactly at the maximum.", "quantifier": "all series, cycles, scalings", "why_tests_cant": "all series of any length", "anchors": ["solarwindpy/solar_activity/sunspot_number/sidc.py:SIDC.run_normalization", "solarwindpy/solar_activity/base.py:ActivityIndicator._run_normalization"]}
{"id": "C186", "title": "The sunspot object over its life (violated)", "statement": "An unknown normalisation is refused and changes nothing; after a normalisation the normalised series and its name stay, whatever is read or interpolated, until the next one; banding fails before normalising (KeyError), before interpolating (AttributeError) and when the interpolated frame lacks the series (TypeError), and otherwise gives each value its band. Violated: the first read of `normalized` lacks the rows outside the cycles, the second has them; after interpolating the normalised series run_normalization fails with KeyError although it has replaced the column; the interpolated normalised number is scaled with the interpolated values, so a lone target in a cycle is 1 whatever its sunspot number.", "quantifier": "all histories of calls", "why_tests_cant": "all call histories", "anchors": ["solarwindpy/solar_activity/sunspot_number/sidc.py:SIDC.normalized", "solarwindpy/solar_activity/sunspot_number/sidc.py:SIDC.run_normalization", "solarwindpy/solar_activity/sunspot_number/sidc.py:SIDC.interpolate_data", "solarwindpy/solar_activity/sunspot_number/sidc.py:SIDC.cut_spec_by_ssn_band", "solarwindpy/solar_activity/base.py:ActivityIndicator.norm_by"]}
{"id": "C187", "title": "LISIRD missing markers and the sunspot curve on a colour bar (violated)", "statement": "In Lyman alpha exactly the values equal to the common missing marker become missing. Violated: a NaN marker is NotImplementedError, other LISIRD series keep markers as measurements, and normalising a LISIRD index always fails. The colour-bar scale ends at the maximum rounded to hundreds: a value is drawn on the bar iff it is at most that; a maximum rounded down is drawn beyond the bar, one below 50 at infinity.", "quantifier": "all data, markers, maxima", "why_tests_cant": "all values", "anchors": ["solarwindpy/solar_activity/lisird/lisird.py:LISIRDLoader.convert_nans", "solarwindpy/solar_activity/lisird/lisird.py:LISIRD.run_normalization", "solarwindpy/solar_activity/sunspot_number/sidc.py:SIDC.plot_on_colorbar"]}
{"id": "C188", "title": "Saving figures (violated)", "statement": "An accepted save writes PDF and PNG next to each other under the base name, changes no other file, and leaves files saved under other undotted names alone; a refused save writes nothing. Each panel's share of a subplots figure is base size times scale. Violated: a base name containing a dot loses everything after the last one, so n_0.5 and n_0.7 overwrite each other; the stamp stays on the figure, so the PDF carries the stamps of all earlier saves of the figure; a refused PNG leaves its stamp behind.", "quantifier": "all figures, base names, options, series of saves", "why_tests_cant": "all series of saves", "anchors": ["solarwindpy/plotting/tools.py:save", "solarwindpy/plotting/tools.py:subplots"]}
{"id": "C189", "title": "History of an interactive selection (violated)", "statement": "While selecting, the corners are the dragged rectangles in order, each drawn once and numbered correctly whatever was in the axes; after disconnecting, drags have no effect and the samples are those of sample_data over all drags. Violated: the summary's number of patches is increased by the number of empty patches, once per disconnect; a rectangle dragged twice counts every spectrum twice; with matplotlib 3.7 or later (3.10.6 is pinned) no selection can be started.", "quantifier": "all sequences of drags and disconnects, data, random generators", "why_tests_cant": "all histories", "anchors": ["solarwindpy/plotting/select_data_from_figure.py:SelectFromPlot2D.disconnect", "solarwindpy/plotting/select_data_from_figure.py:SelectFromPlot2D.onselect", "solarwindpy/plotting/select_data_from_figure.py:SelectFromPlot2D.start_selector"]}
{"id": "C190", "title": "Values of adaptive mesh cells (violated)", "statement": "The value of a cell comes from exactly the data inside it, whatever the order the parallel loop visited the cells: missing without data, outside the count limits or when filtered, else the count or mean; counts of all cells add up to the number of data covered; means lie between bounds of the data; rows with a missing entry are dropped, all missing is ValueError. Violated: dependent values that are all equal are replaced by counts by default, and clip_data has no effect.", "quantifier": "all meshes, data, visiting orders, limits", "why_tests_cant": "all meshes and data", "anchors": ["solarwindpy/plotting/spiral.py:SpiralPlot2D.agg", "solarwindpy/plotting/spiral.py:SpiralPlot2D.build_grouped", "solarwindpy/plotting/base.py:PlotWithZdata.set_data"]}
{"id": "C191", "title": "Drawing adaptive mesh plots (violated)", "statement": "A drawn rectangle contains exactly the positions of the data of its cell (modulus on log axes); colour limits are ordered, within the data, and never replace the caller's; opacities fall from 1 at the smallest aggregated value to 0. Violated: naming one filter threshold switches the other off although the call is documented to update; limited colours of count plots are [1, 1]; the cell with the largest spread is invisible.", "quantifier": "all cells, data, thresholds", "why_tests_cant": "all real inputs", "anchors": ["solarwindpy/plotting/spiral.py:SpiralMesh.set_cell_filter_thresholds", "solarwindpy/plotting/spiral.py:SpiralPlot2D.make_plot", "solarwindpy/plotting/spiral.py:SpiralPlot2D._limit_color_norm"]}
{"id": "C192", "title": "The problem handed to the optimiser (violated)", "statement": "Parameters only ever come from the optimiser, started at the requested start (or the class's guess) with one ordered pair of bounds per parameter, a start within them and finite residuals there; stored bounds are those used, by name; bounds given by name are matched by name, whatever the order or extra entries, and a missing one is KeyError; p0=None starts strictly within any bounds; a start of the wrong length is TypeError; an uncertainty of zero always fails. Violated: a class whose own guess fails cannot be fitted from a given start, and method=\"lm\" alone always fails.", "quantifier": "all requests, models, data, optimisers", "why_tests_cant": "all requests and optimisers", "anchors": ["solarwindpy/fitfunctions/core.py:FitFunction._run_least_squares"]}
{"id": "C193", "title": "What a fit minimises (violated)", "statement": "The default objective never exceeds half the sum of squared (weighted) residuals and equals it iff no residual exceeds the scale; one observation changes it by at most the scale per unit of its residual; with uncertainties it is unchanged by expressing ordinate, uncertainty and model in another unit. Violated: without uncertainties the unit of the ordinate decides which of two candidates fits better.", "quantifier": "all residuals, scales, data, models", "why_tests_cant": "all real data", "anchors": ["solarwindpy/fitfunctions/core.py:FitFunction._run_least_squares"]}
{"id": "C194", "title": "The trend function and what is shown of it (violated)", "statement": "The trend is fitted to one observation per remaining column: mid-point of its bin (ten to that power on a logarithmic axis), its own parameters as ordinate and uncertainty, selected by the limits in order; no fits or a weights keyword are ValueError, an unknown parameter KeyError, a second logx TypeError, anything else with ordered limits succeeds. Every column used is labelled In Fit; on a linear axis only_plot_data_in_trend_fit draws exactly the columns used. Violated: a column cut off by an abscissa limit may be labelled In Fit; on a logarithmic axis nothing is drawn.", "quantifier": "all columns, parameters, limits, keywords", "why_tests_cant": "all columns", "anchors": ["solarwindpy/fitfunctions/trend_fits.py:TrendFit.make_trend_func", "solarwindpy/fitfunctions/trend_fits.py:TrendFit.plot_all_ffuncs", "solarwindpy/fitfunctions/trend_fits.py:TrendFit.plot_all_popt_1d"]}
{"id": "C195", "title": "Turbulence built from a plasma", "statement": "Plasma.build_alfvenic_turbulence with one group of species holds the fluctuations of that group's (centre-of-mass) velocity and of the field in Alfven units of its mass density; with two groups separated by a comma those of the differential flow of the first against the second and the density of the second. The field in Alfven units has the plasma's Alfven speed as magnitude and the field's direction. A velocity common to all species, even a varying one, does not change the two-group turbulence; a constant one does not change the one-group turbulence. The same group on both sides (in any order) is NotImplementedError, more than one comma or an unknown species ValueError, an index that is not made of times TypeError.", "quantifier": "all plasmas, species strings, windows, frames of reference", "why_tests_cant": "all time series and species strings", "anchors": ["solarwindpy/core/plasma.py:Plasma.build_alfvenic_turbulence", "solarwindpy/core/alfvenic_turbulence.py:AlfvenicTurbulence.set_data"]}
{"id": "C196", "title": "An ion's properties against the plasma's (violated)", "statement": "For measured data the ion's mass density, pressure, temperature, sound speed, anisotropy and entropy are what the plasma reports for that species; the sound speed is the thermal speed times sqrt(gamma/2); ions are equal iff species and data are. Violated: a missing density is missing in the ion but zero in the plasma, a missing parallel speed is a missing anisotropy in the ion but an infinite one in the plasma; an ion built from just the required columns is accepted but its pressure, temperature, sound speed, anisotropy and entropy raise ValueError.", "quantifier": "all species, data incl. missing", "why_tests_cant": "all rows", "anchors": ["solarwindpy/core/ions.py:Ion.anisotropy", "solarwindpy/core/ions.py:Ion.cs", "solarwindpy/core/ions.py:Ion.specific_entropy", "solarwindpy/core/ions.py:Ion.__eq__"]}
{"id": "C197", "title": "Label texts are balanced LaTeX", "statement": "For plain measurement, component and species of numerator and denominator, any normalisation, placement of units and description: the text is the description and one formula $...$ (two if units go to a new line); inside a formula no dollar occurs and every LaTeX group opened is closed. Violated for LaTeX given by the user: the clean-up turns a trailing thin space into an escaped brace.", "quantifier": "all measurements, components, species, normalisations, descriptions", "why_tests_cant": "all strings", "anchors": ["solarwindpy/plotting/labels/base.py:TeXlabel._build_one_label", "solarwindpy/plotting/labels/base.py:TeXlabel._combine_tex_path_units_axnorm"]}
{"id": "C198", "title": "Exact text of a label (violated for missing parts)", "statement": "Each documented measurement shows exactly the text listed in the specification, depending only on whether component and species are given; any other shows {M}_{{C};{S}}, {M}_{{C}}, {M}_{{S}} or {M}; uncertainties the same in sigma(...). Violated: the uncertainty of Elsasser variables, turbulent energies, gyrofrequency, ... without species ends in '_)', flux without species has empty parentheses, positions without component begin with a subscript.", "quantifier": "all documented measurements, all components and species lists", "why_tests_cant": "all components and species lists", "anchors": ["solarwindpy/plotting/labels/base.py:TeXlabel._build_one_label", "solarwindpy/plotting/labels/base.py:_templates"]}
{"id": "C199", "title": "Which labels are equal (violated)", "statement": "Labels of measurements without own text are equal iff both or none is an uncertainty, measurement and the shown parts of the subscript have the same LaTeX in the same order, and the units agree; labels showing only the species are equal iff the species' LaTeX is. Violated: component p alone equals species p alone, the species of a magnetic field is not shown, p_bimax equals p: such labels collide as dictionary keys.", "quantifier": "all pairs of labels", "why_tests_cant": "all pairs", "anchors": ["solarwindpy/plotting/labels/base.py:Base.__eq__", "solarwindpy/plotting/labels/base.py:Base.__hash__", "solarwindpy/plotting/labels/base.py:TeXlabel._build_one_label"]}
{"id": "C200", "title": "Labels of abundances and dates (violated)", "statement": "The save path of an abundance label determines both species up to capitalisation and whether the ratio is photospheric; an epoch label is refused iff its space is unknown and its path determines both units of time. Violated: percent and number share a path although they are different labels; particle codes (a, p1, e, ...) are capitalised and then not translated; date labels differing in capitals share a path.", "quantifier": "all species, kinds, spaces", "why_tests_cant": "all strings", "anchors": ["solarwindpy/plotting/labels/elemental_abundance.py:ElementalAbundance", "solarwindpy/plotting/labels/datetime.py:DateTime", "solarwindpy/plotting/labels/datetime.py:Epoch"]}
{"id": "C201", "title": "Sunspot, correlation, manual and count labels (violated)", "statement": "Sunspot labels exist for exactly the eight kinds in any capitalisation and kinds have different texts and paths; a correlation label is refused iff a constituent is neither text nor label (or the method is empty in short form), its text has no blank and no doubled thin space; a manual label needs a unit, drops enclosing dollar signs, spells out known units, shows brackets iff the unit is not empty. Violated: correlation and comparison paths a-b with c and a with b-c collide; counts of another label accept text and then fail, and save \\lt and \\gt under one path.", "quantifier": "all keys, constituents, methods, texts, units", "why_tests_cant": "all strings", "anchors": ["solarwindpy/plotting/labels/special.py:SSN", "solarwindpy/plotting/labels/special.py:Xcorr", "solarwindpy/plotting/labels/special.py:ManualLabel", "solarwindpy/plotting/labels/special.py:CountOther", "solarwindpy/plotting/labels/special.py:ComparisonLable._build_path"]}
{"id": "C202", "title": "Attribute access and copying of a plasma (violated)", "statement": "On a constructed plasma every attribute access ends: class and instance names give these, other names the ion of that name, anything else is AttributeError; hasattr of a known species is true unless a class name hides it. Violated: a plasma can be neither copied (copy.copy, copy.deepcopy) nor unpickled, since looking up a missing attribute asks for the ions, which are missing too (endless recursion, RecursionError); ions named like a method or property (n, b, S, ...) are unreachable as attributes.", "quantifier": "all plasmas, attribute names, rebuild protocols", "why_tests_cant": "all names and objects", "anchors": ["solarwindpy/core/plasma.py:Plasma.__getattr__", "solarwindpy/core/plasma.py:Plasma.ions"]}
{"id": "C203", "title": "Histories of setters on a plasma (violated)", "statement": "After any history of set_spacecraft, set_auxiliary_data and estimate_electrons(inplace=True), ions and field belong to the data, and spacecraft and auxiliary data carry its index; in-place electrons keep every old species' values and add the estimate. Violated: set_data on an existing plasma keeps the old ions and attachments; a refused set_data may leave the data replaced and the field old; auxiliary data may duplicate columns of the data after in-place electrons.", "quantifier": "all histories of calls", "why_tests_cant": "all histories", "anchors": ["solarwindpy/core/plasma.py:Plasma.set_data", "solarwindpy/core/plasma.py:Plasma.set_spacecraft", "solarwindpy/core/plasma.py:Plasma.set_auxiliary_data", "solarwindpy/core/plasma.py:Plasma.estimate_electrons", "solarwindpy/core/plasma.py:Plasma._set_ions"]}
{"id": "C204", "title": "Smoothing of activity indices (violated)", "statement": "Each smoothed sample is the mean of the values measured within half a window on either side of its date, missing iff there is none, and lies between the smallest and the largest of them; there is one sample per measurement, in order. Violated: the first smoothed sample is the first measurement itself, dated half a window before it.", "quantifier": "all series with missing values, all windows", "why_tests_cant": "all series", "anchors": ["solarwindpy/solar_activity/lisird/extrema_calculator.py:ExtremaCalculator.set_data"]}
{"id": "C205", "title": "Dates of solar extrema (violated)", "statement": "Every extremum is the first sample attaining the largest (smallest) smoothed value of its interval between neighbouring threshold crossings; its date is half a window before a measurement other than the first, so no extremum lies in the last half window; dates do not depend on unit and zero point of index and threshold; five of the Ca K quantities are ValueError. Violated: with the default window a maximum may be dated before the first measurement.", "quantifier": "all series with missing values, thresholds, windows, units", "why_tests_cant": "all series", "anchors": ["solarwindpy/solar_activity/lisird/extrema_calculator.py:ExtremaCalculator.find_extrema", "solarwindpy/solar_activity/lisird/extrema_calculator.py:ExtremaCalculator._find_extrema", "solarwindpy/solar_activity/lisird/extrema_calculator.py:ExtremaCalculator.cut_data_into_extrema_finding_intervals", "solarwindpy/solar_activity/lisird/extrema_calculator.py:ExtremaCalculator.set_name"]}
{"id": "C206", "title": "Shipped reference abundances (violated in single cases)", "statement": "Both tables hold the same 83 elements with different symbols and numbers; an element is found by symbol and number with the same values, anything else is KeyError, never AssertionError. A ratio is missing exactly when one element has no photospheric abundance, is 1 for an element over itself and at most 1 over hydrogen. Ratios to 'H' and to 1 agree, except that H/H in 2009 has a missing uncertainty by symbol and none by number. get_comment: never a comment (nor an error) for 2009; for 2021 ValueError for a wrong key type, None for an unknown element; elements commented 'meteorites' (documented as adopted from chondrites) have no abundance except lithium.", "quantifier": "all elements, ways of naming them, both years", "why_tests_cant": "all pairs of elements and keys", "anchors": ["solarwindpy/core/abundances.py:ReferenceAbundances._load_data", "solarwindpy/core/abundances.py:ReferenceAbundances.get_element", "solarwindpy/core/abundances.py:ReferenceAbundances.get_comment", "solarwindpy/core/abundances.py:ReferenceAbundances.abundance_ratio", "solarwindpy/core/data/asplund2009.csv", "solarwindpy/core/data/asplund2021.csv"]}
{"id": "C207", "title": "Shipped solar cycles and bands about their extrema", "statement": "The shipped table gives 25 cycles for every date of the call; each time after 1755-02-01 up to 2036-11-29 (the date of the call once that is after 2030-12-01) lies in exactly one cycle and one of its edges. Cutting about extrema names a time 'N-Min' or 'N-Max' exactly if it lies in that extremum's band; if two selected extrema are closer than a band is wide every call is ValueError. With the shipped table all extrema can be cut exactly up to a total width of 1065 days (minima alone 3287, maxima alone 2677), so the default of 365 days on either side works. AttributeError before the bands are computed, KeyError for an unknown kind.", "quantifier": "all dates of the call, epochs, widths, selections", "why_tests_cant": "all epochs and widths", "anchors": ["solarwindpy/solar_activity/base.py:IndicatorExtrema.calculate_intervals", "solarwindpy/solar_activity/base.py:IndicatorExtrema.calculate_extrema_bands", "solarwindpy/solar_activity/base.py:IndicatorExtrema.cut_about_extrema_bands", "solarwindpy/solar_activity/sunspot_number/sidc.py:SSNExtrema.load_or_set_data", "solarwindpy/solar_activity/sunspot_number/ssn_extrema.csv"]}
{"id": "C208", "title": "Species without tabulated constants (violated)", "statement": "A plasma may hold any species names, but constants exist for ten (p, p1, p2, pm, p_bimax, a, a1, a2, a_bimax, e), the same in all five tables. Densities, velocities and drifts of single species need none. Mass density, pressure, temperature, beta, anisotropy, sound, Alfven and firehose quantities, entropy, centre-of-mass velocity and drift from it, m/q projection, drift pressure, heat flux, Coulomb logarithm, collision frequency and VDF ratio raise KeyError exactly when a species asked for has no constants and are otherwise unaffected by other species. Violated locality: Coulomb number and electron estimate raise KeyError for ANY untabulated species of the plasma.", "quantifier": "all species names, plasmas, rows, ways of asking", "why_tests_cant": "all names and subsets", "anchors": ["solarwindpy/core/units_constants.py:Constants", "solarwindpy/core/plasma.py:Plasma.nc", "solarwindpy/core/plasma.py:Plasma.estimate_electrons", "solarwindpy/core/plasma.py:Plasma.velocity", "solarwindpy/core/ions.py:Ion.mass_density"]}
{"id": "C209", "title": "What a fit reports about its initial guess (violated)", "statement": "A fit that returns normally has stored, by name, the parameters found, and its annotation shows them with one line per parameter: name, initial guess and the bounds used; before a fit there is no such table; dof is the number of used observations minus the number of parameters. Violated: the guess shown is always the class's own, even when the fit was started from a given p0; and for a line with two neighbouring observations at the same abscissa (exactly then the guess is None) make_fit never returns normally: after a successful optimisation it raises TypeError whatever return_exception says, with new parameters stored beside the old annotation and plotter, and dof raises TypeError.", "quantifier": "all data, classes, requests, optimiser outcomes, earlier states", "why_tests_cant": "all data sets and histories", "anchors": ["solarwindpy/fitfunctions/core.py:FitFunction.initial_guess_info", "solarwindpy/fitfunctions/core.py:FitFunction.dof", "solarwindpy/fitfunctions/core.py:FitFunction.make_fit", "solarwindpy/fitfunctions/core.py:FitFunction.build_TeX_info", "solarwindpy/fitfunctions/lines.py:Line.p0", "solarwindpy/fitfunctions/lines.py:LineXintercept.p0"]}
{"id": "C210", "title": "Data products of solar activity (violated)", "statement": "A key is accepted iff it names one of the seven sunspot or five LISIRD series (NotImplementedError otherwise) and different keys have different addresses. A sunspot download keeps every value under its name with the marker -1 missing in every column, adds the standard error(s), and dates data by the Gregorian calendar (monthly data on the first of the month). A total series can be constructed iff its data can be loaded. Violated: the documented key f107-pen is refused; hemispheric series can never be constructed (KeyError after downloading and renewing the cache); SSNPlot can never be constructed (AttributeError: the label class it asks for is in another module).", "quantifier": "all keys, downloaded tables, dates, cache states", "why_tests_cant": "all tables and histories", "anchors": ["solarwindpy/solar_activity/base.py:ID.set_key", "solarwindpy/solar_activity/sunspot_number/sidc.py:SIDC_ID", "solarwindpy/solar_activity/sunspot_number/sidc.py:SIDCLoader.download_data", "solarwindpy/solar_activity/sunspot_number/sidc.py:SIDC.__init__", "solarwindpy/solar_activity/lisird/lisird.py:LISIRD_ID", "solarwindpy/solar_activity/plots.py:IndicatorPlot.__init__"]}
{"id": "C211", "title": "Cycle, edge and extremum of every sunspot datum (violated at the minima)", "statement": "For every well-formed table of extrema each datum gets the number of the last cycle whose minimum is before it (none at or before the first minimum and after the end); rising edge up to the recorded maximum, falling after; a measured datum is a maximum iff it is at least half the largest value measured in its cycle, else a minimum of its own or the next cycle. With the shipped table every measured datum from 1755-02-02 on has all three labels. Violated: the datum dated at a minimum (the month of the minimum) is counted to the previous cycle, that of cycle 1 to none.", "quantifier": "all tables, dates of the call, series", "why_tests_cant": "all series", "anchors": ["solarwindpy/solar_activity/sunspot_number/sidc.py:SIDCLoader.load_data", "solarwindpy/solar_activity/sunspot_number/sidc.py:SIDC.calculate_extrema_kind", "solarwindpy/solar_activity/sunspot_number/sidc.py:SIDC.calculate_edge"]}
{"id": "C212", "title": "The annotation of a fit, in full (violated for documented reports)", "statement": "With power-of-ten notation the annotation is, for every formula of plain lines, plainly named parameters, translation of names and choice of statistics: the formula, one line per parameter (untranslated ones in their order, then the translated ones; value and uncertainty, infinite ones as \\infty), one blank line, number of points and both reduced chi-squared to two decimals, and R-squared last. The same without uncertainties (strip_uncertainties), in exponent notation (convert_pow_10=False) and, whatever else is asked for, simplified for a paper: name = shortest number without trailing zeros, no uncertainty, formula and statistics unchanged. The table of relative errors has one row per displayed parameter. If every parameter is missing (or there is none) it is the formula and 'Fit Failed' whatever the options. It is available iff no infinite or missing value has a finite uncertainty (else ValueError) and the statistics asked for are there. Violated: chi-squared is asked for by default, so a report with the documented chisq_dof=None or a plain number raises AttributeError; rsq=None raises TypeError; an uncertainty without a value is accepted but relative_error then raises KeyError.", "quantifier": "all reports, formulas, names, numbers, options", "why_tests_cant": "all texts and reals", "anchors": ["solarwindpy/fitfunctions/tex_info.py:TeXinfo.build_info", "solarwindpy/fitfunctions/tex_info.py:TeXinfo._build_fit_parameter_info", "solarwindpy/fitfunctions/tex_info.py:TeXinfo.TeX_popt", "solarwindpy/fitfunctions/tex_info.py:TeXinfo.TeX_relative_error"]}
{"id": "C213", "title": "Math mode of every line of the annotation (violated)", "statement": "matplotlib draws an annotation line by line, so each line must have an even number of dollars. It does for every report in power-of-ten notation. Violated: with convert_pow_10=False the table of relative errors is one math expression over several lines, for every fit; a failed fit puts a formula of several lines (HeavySide, hinges, composites) between one pair of dollars.", "quantifier": "all reports, options, formulas", "why_tests_cant": "all texts", "anchors": ["solarwindpy/fitfunctions/tex_info.py:TeXinfo._build_fit_parameter_info", "solarwindpy/fitfunctions/tex_info.py:TeXinfo.build_info", "solarwindpy/fitfunctions/tex_info.py:TeXinfo.TeX_relative_error"]}
{"id": "C214", "title": "The printed formula is the fitted curve (violated by two classes)", "statement": "Every class prints, next to its parameters, a LaTeX formula. Read as mathematics, with the printed names standing for the fitted values, it gives the value of the curve at every point: for the lines, Gaussians, exponentials, power laws (positive base), steps and composites (away from the step, whatever H(0) means to the reader), and for the hinges whenever the printed equations between the names hold and no divisor is zero. Every line of every formula is one the annotation prints unchanged (C212). Violated: GaussianLn (no minus sign) at every x other than e^m, Moyal at its centre.", "quantifier": "all parameter values, all abscissae, all 22 classes", "why_tests_cant": "all reals", "anchors": ["solarwindpy/fitfunctions/lines.py:Line.TeX_function", "solarwindpy/fitfunctions/gaussians.py:GaussianLn.TeX_function", "solarwindpy/fitfunctions/hinge.py:Saturation.TeX_function", "solarwindpy/fitfunctions/composite.py:GaussianPlusHeavySide.TeX_function", "solarwindpy/fitfunctions/moyal.py:Moyal.TeX_function"]}
{"id": "C215", "title": "Labels built from labels, after a change (violated)", "statement": "Newly made labels (probabilities, counts, functions, absolute values, comparisons, correlations, frequencies of other labels, nested to any depth) say exactly what their settings and those of their constituents mean: text, path, units. After any history, set_constituents of the comparisons and build_label, in order of creation, make them all say so again. Violated: without that a label keeps its old text and path whatever is done to its own settings or its constituents, while its units follow the constituents: an absolute value of a changed label shows the old symbol with the new unit; a comparison keeps units that its constituents no longer have, even after build_label; a label may be made its own constituent, and its units then never terminate (RecursionError). A frequency's path names its units or UNK.", "quantifier": "all heaps of labels, all histories of constructors, setters and build_label, all nesting depths", "why_tests_cant": "all histories", "anchors": ["solarwindpy/plotting/labels/special.py:Probability", "solarwindpy/plotting/labels/special.py:CountOther", "solarwindpy/plotting/labels/special.py:MathFcn", "solarwindpy/plotting/labels/special.py:AbsoluteValue", "solarwindpy/plotting/labels/special.py:ComparisonLable", "solarwindpy/plotting/labels/special.py:Xcorr", "solarwindpy/plotting/labels/datetime.py:Frequency", "solarwindpy/plotting/labels/base.py:TeXlabel.build_label"]}
{"id": "C216", "title": "Independence of the reference frame (violated with project_m2q or missing velocities)", "statement": "Adding one velocity to every species (a Galilean change of frame) leaves densities, pressures, temperatures, betas, anisotropies, wave speeds, entropies, Coulomb logarithms, drifts of two species and collision frequencies unchanged for every row (missing and infinite values included) and every argument. On rows where all species are measured with positive density every velocity the plasma reports, the centre of mass and the estimated electrons included, is shifted by exactly that velocity, and drifts of sums, dynamic pressure and heat flux are unchanged. Violated: the drift projected by mass per charge is frame independent iff both species have the same mass per charge; otherwise the VDF ratio of one and the same plasma exceeds any bound in a suitable frame; with a missing velocity the centre of mass follows the frame only by the mass fraction of the measured species.", "quantifier": "all rows, boosts, species, argument lists", "why_tests_cant": "all reals and data", "anchors": ["solarwindpy/core/plasma.py:Plasma.velocity", "solarwindpy/core/plasma.py:Plasma.dv", "solarwindpy/core/plasma.py:Plasma.pdynamic", "solarwindpy/core/plasma.py:Plasma.heat_flux", "solarwindpy/core/plasma.py:Plasma.nuc", "solarwindpy/core/plasma.py:Plasma.vdf_ratio", "solarwindpy/core/plasma.py:Plasma.estimate_electrons"]}
{"id": "C217", "title": "Independence of the axes", "statement": "Turning (or reflecting) the coordinate axes, i.e. applying one orthogonal matrix to every velocity and to the magnetic field, turns every reported velocity, drift and electron velocity by the same matrix and leaves every scalar (beta, Alfven speeds, anisotropy factor, dynamic pressure, heat flux, collision frequency and number, VDF ratio, electron density and temperature) unchanged, on measured rows with positive densities, for every argument.", "quantifier": "all orthogonal matrices, measured rows, species, argument lists", "why_tests_cant": "all reals", "anchors": ["solarwindpy/core/vector.py:Vector.project", "solarwindpy/core/plasma.py:Plasma.velocity", "solarwindpy/core/plasma.py:Plasma.dv", "solarwindpy/core/plasma.py:Plasma.pdynamic", "solarwindpy/core/plasma.py:Plasma.heat_flux", "solarwindpy/core/plasma.py:Plasma.nuc", "solarwindpy/core/plasma.py:Plasma.nc", "solarwindpy/core/plasma.py:Plasma.vdf_ratio", "solarwindpy/core/plasma.py:Plasma.estimate_electrons"]}
{"id": "C218", "title": "Rescaling of the densities", "statement": "Multiplying all densities by k > 0 multiplies number and mass densities, thermal pressures, betas, dynamic pressure and heat flux by k, Alfven speeds by k^(-1/2), specific entropies by k^(1-gamma) and the estimated electron density by k, and leaves velocities, centre of mass, drifts, temperatures, sound speeds, VDF ratio, electron velocity and thermal speed unchanged: for every row (missing and infinite values included) and every argument. The Coulomb logarithm of measured like-charged species decreases by half the logarithm of k.", "quantifier": "all rows, factors, species, argument lists", "why_tests_cant": "all reals and data", "anchors": ["solarwindpy/core/plasma.py:Plasma.number_density", "solarwindpy/core/plasma.py:Plasma.mass_density", "solarwindpy/core/plasma.py:Plasma.pth", "solarwindpy/core/plasma.py:Plasma.beta", "solarwindpy/core/plasma.py:Plasma.ca", "solarwindpy/core/plasma.py:Plasma.specific_entropy", "solarwindpy/core/plasma.py:Plasma.estimate_electrons", "solarwindpy/core/plasma.py:Plasma.lnlambda"]}
{"id": "C219", "title": "Rescaling of thermal speeds and field; reversal of the field", "statement": "Multiplying all thermal speeds by k > 0 multiplies pressures, temperatures, betas and entropies by k^2 and sound speeds by k; multiplying the magnetic field by k > 0 divides betas by k^2, multiplies Alfven speeds by k and leaves heat flux and VDF ratio unchanged; reversing the field changes the sign of the heat flux and nothing else: for every row and every argument. On measured rows the deviation of the anisotropy factor from one scales with k^2 and 1/k^2.", "quantifier": "all rows, factors, species, argument lists", "why_tests_cant": "all reals and data", "anchors": ["solarwindpy/core/plasma.py:Plasma.pth", "solarwindpy/core/plasma.py:Plasma.temperature", "solarwindpy/core/plasma.py:Plasma.beta", "solarwindpy/core/plasma.py:Plasma.ca", "solarwindpy/core/plasma.py:Plasma.afsq", "solarwindpy/core/plasma.py:Plasma.heat_flux", "solarwindpy/core/plasma.py:Plasma.sound_speed"]}
{"id": "C220", "title": "What the reproducibility record says about the code that ran", "statement": "get_git_info answers as a whole or not at all: commit, abbreviation (its first seven characters), dirty mark and branch all come from git, or they are 'unknown' (mark None) - exactly when git or the directory is missing, no directory upwards is a repository or there is no commit yet; only a path that is a file or may not be entered raises. On a machine that holds still the commit is the one checked out in the nearest enclosing repository, the branch its name (HEAD when detached), and the mark is set exactly when a tracked file was edited or deleted without staging, never on a clean checkout. get_info lists the five dependencies with their versions, 'not installed' exactly on ImportError. Violated: staged edits and untracked files leave the record (and the citation) of the clean checkout; a checkout between the commands pairs the commit of one branch with the name of another; a package installed below a user's own repository is cited with that project's commit; commits that share seven characters are cited alike.", "quantifier": "all repositories, directory trees, changes between the commands, interpreters", "why_tests_cant": "all histories and interleavings", "anchors": ["solarwindpy/reproducibility.py:get_git_info", "solarwindpy/reproducibility.py:get_info", "solarwindpy/reproducibility.py:get_citation_string", "solarwindpy/reproducibility.py:print_info"]}
{"id": "C221", "title": "Turbulence under a change of axes, field sign, units, density and clock", "statement": "Turning or mirroring the axes turns the fluctuations and Elsasser variables and leaves every energy, helicity and ratio unchanged (rows measured or missing as a whole). Reversing the field exchanges the Elsasser variables and their energies and changes the sign of both cross helicities, nothing else; in the rectified version it changes nothing at all. Another speed unit multiplies energies by its square and leaves the normalised quantities; a density k^2 times higher divides field fluctuations by k and multiplies the Alfven ratio by k^2; moving all time stamps changes nothing. A field that is the velocity (or its opposite) in Alfven units plus a constant background has normalised cross helicity 1 (-1), no residual energy and Alfven ratio 1 at every row that fluctuates.", "quantifier": "all time series, windows, rotations, factors", "why_tests_cant": "all reals and data", "anchors": ["solarwindpy/core/alfvenic_turbulence.py:AlfvenicTurbulence.set_data", "solarwindpy/core/alfvenic_turbulence.py:AlfvenicTurbulence.normalized_cross_helicity", "solarwindpy/core/alfvenic_turbulence.py:AlfvenicTurbulence.bfield"]}
{"id": "C222", "title": "Turbulence from inputs with different time stamps (violated)", "statement": "When velocity, field and density have different time indices the rows of the result are the union of all time stamps, once each, in time order, and everything is computed as if each input had been reindexed to them with NaN. With a window of time the velocity fluctuations depend only on the velocity's own measured stamps and the field fluctuations only on stamps shared by field and density: each is the value minus the mean of the measured values of the last window. Violated: a stamp without velocity is reported with kinetic and Elsasser energies 0 instead of missing, hence residual energy -1 and Alfven ratio 0 wherever the field fluctuates; a window counted in rows counts rows of the common frame, so a stamp that only another input has changes the velocity fluctuation.", "quantifier": "all finite indices of integer nanoseconds, all values (missing and infinite included), windows, minimal counts", "why_tests_cant": "all data", "anchors": ["solarwindpy/core/alfvenic_turbulence.py:AlfvenicTurbulence.set_data", "solarwindpy/core/alfvenic_turbulence.py:AlfvenicTurbulence.sigma_r", "solarwindpy/core/alfvenic_turbulence.py:AlfvenicTurbulence.ev"]}
{"id": "C223", "title": "One plasma at different growth rates (violated)", "statement": "A mode growing at 10^-2 also grows at 10^-3, so a plasma unstable at a faster rate should be unstable at every slower one. From 10^-2 to 10^-3 this holds for every beta >= 0 and anisotropy >= 0, on the same side of isotropy, mirror staying mirror and oblique firehose staying so; from 10^-3 to 10^-4 for all small anisotropies and, for large ones, at 0.02 <= beta <= 6. Violated: at every beta >= 9 there are anisotropies that are mirror-unstable at 10^-3 and 'Stable' at 10^-4, and at every beta <= 0.015 ones that are AIC-unstable at 10^-3 and 'Stable' at 10^-4. From beta = 14 on the two 'Between' bins never occur, at any growth rate.", "quantifier": "all real betas and anisotropies, the three growth rates", "why_tests_cant": "uncountably many", "anchors": ["solarwindpy/instabilities/verscharen2016.py:insta_params", "solarwindpy/instabilities/verscharen2016.py:beta_ani_inst", "solarwindpy/instabilities/verscharen2016.py:StabilityCondition.stability_bin"]}
{"id": "C224", "title": "Names and colours of the stability bins (violated with matplotlib >= 3.9)", "statement": "Every row of a stability condition is drawn in one of five different colours, and the tick in the middle of that colour's band on the bar carries the name of what the row is: 'MM' exactly when the mirror threshold is exceeded, and so on; values nearest to a bin get its colour, values outside -0.5..4.5 none, positions that are not bins have no text (KeyError); names and numbers are one-to-one. Violated: from matplotlib 3.9 on (3.10.6 is pinned in requirements.txt) cmap and cbar_kwargs raise AttributeError.", "quantifier": "all values, rows, matplotlib versions", "why_tests_cant": "all reals and versions", "anchors": ["solarwindpy/instabilities/verscharen2016.py:StabilityCondition.stability_map", "solarwindpy/instabilities/verscharen2016.py:StabilityCondition.stability_map_inverse", "solarwindpy/instabilities/verscharen2016.py:StabilityCondition.norm", "solarwindpy/instabilities/verscharen2016.py:StabilityCondition.cmap", "solarwindpy/instabilities/verscharen2016.py:StabilityCondition.cbar_kwargs"]}
{"id": "C225", "title": "Fits in other units (violated for some guesses)", "statement": "Expressing the abscissas in a unit k times smaller and the ordinates in one c times smaller, and converting every parameter by its dimension, turns each curve (lines, two lines, hinges, saturation, Gaussians, Moyal, composites with steps, exponentials, power laws) and each derived quantity into the same curve in the new units, for all values including missing and infinite ones; and the initial guess of the lines, two lines, hinges, steps, Gaussians, Moyal and composites from the converted data is the converted guess, errors included. Violated: the step curve at its step (value quadratic in the heights); the saturated hinge, whose thresholds 1e-15 and 1e-10 are pure numbers; angles between lines, which are angles on paper; the first slope of a hinge at a point with no data below it (1 in any units); the guesses of exponentials and power laws (rates and exponents 1), of the cumulative exponential (a rate guessed as an ordinate) and of the logarithmic Gaussian (logarithm of the height as the height).", "quantifier": "all data, parameters, unit factors", "why_tests_cant": "all reals and data", "anchors": ["solarwindpy/fitfunctions/lines.py:Line", "solarwindpy/fitfunctions/hinge.py:TwoLine", "solarwindpy/fitfunctions/hinge.py:HingeSaturation", "solarwindpy/fitfunctions/gaussians.py:Gaussian", "solarwindpy/fitfunctions/composite.py:GaussianPlusHeavySide", "solarwindpy/fitfunctions/heaviside.py:HeavySide", "solarwindpy/fitfunctions/exponentials.py:Exponential", "solarwindpy/fitfunctions/power_laws.py:PowerLaw", "solarwindpy/fitfunctions/moyal.py:Moyal"]}
{"id": "C226", "title": "Fits from another zero of the abscissa (violated for some guesses)", "statement": "Counting the abscissas from another zero and moving every position parameter with them leaves each curve given by positions unchanged, for all values; a line and an exponential keep slope and rate, their intercept and amplitude become the value of the old curve at the new zero. The initial guesses of two lines, saturation, hinges and step move with the data for all data, those of Gaussians, Moyal and Gaussians times a step for finite data with non-zero total. Violated: the guessed intercepts of both straight lines move the wrong way (up by m t instead of down, left by t instead of right); the Gaussian plus step guesses its cut at three quarters of the mean abscissa, so it moves by 3t/4 only and lies above the mean for data around a negative mean.", "quantifier": "all data, parameters, shifts", "why_tests_cant": "all reals and data", "anchors": ["solarwindpy/fitfunctions/lines.py:Line.p0", "solarwindpy/fitfunctions/lines.py:LineXintercept.p0", "solarwindpy/fitfunctions/hinge.py:TwoLine.p0", "solarwindpy/fitfunctions/hinge.py:HingeMin.p0", "solarwindpy/fitfunctions/hinge.py:HingeAtPoint.p0", "solarwindpy/fitfunctions/heaviside.py:HeavySide.p0", "solarwindpy/fitfunctions/gaussians.py:Gaussian.p0", "solarwindpy/fitfunctions/composite.py:GaussianPlusHeavySide.p0"]}
{"id": "C227", "title": "Fits and the order of the samples (violated for lines and hinges)", "statement": "Listing the same samples (abscissa, ordinate, weight) in another order leaves which of them are used, the initial guess or error of Gaussians, Moyal, steps, composites, exponentials and power laws, the objective of the optimiser, the reduced chi-square and R-squared unchanged, for all values including missing and infinite ones. Violated: the slopes guessed for lines and hinges are those between neighbours in the list, so another order gives another guess, and a point measured twice gives no guess if the two are listed next to each other; the hinge at a point takes the height of the first listed of two equally near samples.", "quantifier": "all samples, permutations, limits", "why_tests_cant": "all data and orders", "anchors": ["solarwindpy/fitfunctions/core.py:FitFunction.set_fit_obs", "solarwindpy/fitfunctions/core.py:FitFunction._calc_popt_pcov_psigma_chisq", "solarwindpy/fitfunctions/core.py:FitFunction.rsq", "solarwindpy/fitfunctions/gaussians.py:Gaussian.p0", "solarwindpy/fitfunctions/heaviside.py:HeavySide.p0", "solarwindpy/fitfunctions/composite.py:GaussianTimesHeavySide.p0", "solarwindpy/fitfunctions/lines.py:Line.p0", "solarwindpy/fitfunctions/hinge.py:HingeAtPoint.p0"]}
{"id": "C228", "title": "Histograms of labelled measurements (violated for repeated labels)", "statement": "A 1-D histogram pairs every abscissa with the value y has at the same label, in whatever order y is given; labels of y alone are ignored, an abscissa without a value still marks its bin as observed, and the count of a bin is the number of its abscissas whose label has a value. A 2-D histogram has one row for exactly the labels with a number in x, y and z, and ValueError without any. With distinct labels the bins are those of the rows. Violated: as soon as two stored measurements carry the same label (two spacecraft, repeated times) no histogram can be evaluated: ValueError for every choice of bins, normalisation and aggregation.", "quantifier": "all labelled Series, orders, bins, aggregations", "why_tests_cant": "all data and label multisets", "anchors": ["solarwindpy/plotting/hist1d.py:Hist1D.set_data", "solarwindpy/plotting/base.py:PlotWithZdata.set_data", "solarwindpy/plotting/agg_plot.py:AggPlot.joint", "solarwindpy/plotting/agg_plot.py:AggPlot.agg"]}
{"id": "C229", "title": "1-D histograms of an orbit (violated for densities)", "statement": "For an orbit of two or more disjoint intervals the count curve of a leg holds in every bin the number of measurements of that leg in the bin with a value, 0 where there are none, and the two curves add up to the measurements during the two legs. Violated: the density of such a histogram always raises (TypeError; ValueError for means).", "quantifier": "all orbits, data with distinct times, bins", "why_tests_cant": "all data", "anchors": ["solarwindpy/plotting/orbits.py:OrbitHist1D.agg", "solarwindpy/plotting/orbits.py:OrbitHist1D.make_plot", "solarwindpy/plotting/orbits.py:OrbitPlot.grouped", "solarwindpy/plotting/hist1d.py:Hist1D._axis_normalizer"]}
{"id": "C230", "title": "The beta-anisotropy plot", "statement": "BetaRPlot by default shows in each cell the number of times at which the logarithms of beta and of the anisotropy both lie in the cell if there are at least five, and nothing otherwise; it can be made whenever one time has both. The anisotropy is labelled as one of pressures for a sum of species and of temperatures otherwise.", "quantifier": "all labelled Series with distinct labels, all non-decreasing edges, all species texts", "why_tests_cant": "all data", "anchors": ["solarwindpy/instabilities/beta_ani.py:BetaRPlot", "solarwindpy/plotting/hist2d.py:Hist2D.agg", "solarwindpy/plotting/agg_plot.py:AggPlot._agg_runner"]}
{"id": "C231", "title": "Which frames are vectors and tensors, and their magnitudes (violated)", "statement": "A Tensor is made from exactly the non-empty frames with plain columns par, per and scalar, a Vector from the non-empty ones with plain columns x, y, z (and from any non-empty frame with several column levels); anything else is ValueError and accepted data are kept unchanged. A vector's magnitude is sqrt(x^2+y^2+z^2) wherever the columns stand and whatever else is there. Violated: the magnitude of every tensor raises ValueError; a repeated column x is counted twice in a vector's magnitude.", "quantifier": "all frames, columns, rows", "why_tests_cant": "all column lists and data", "anchors": ["solarwindpy/core/tensor.py:Tensor.magnitude", "solarwindpy/core/tensor.py:Tensor._validate_data", "solarwindpy/core/vector.py:Vector.set_data", "solarwindpy/core/vector.py:Vector.mag"]}
{"id": "C232", "title": "Projecting vectors measured at different times (violated)", "statement": "project and cos_theta of two vectors with distinct times give one row per time at which either was measured; at common times the projection of the two rows, in whatever order the times were given; any argument but a Vector is NotImplementedError. Violated: at a time at which only one was measured (or one row is missing altogether) parallel and perpendicular part and the cosine are 0 - a right angle - instead of missing.", "quantifier": "all pairs of vector series with distinct times, missing values", "why_tests_cant": "all data and time sets", "anchors": ["solarwindpy/core/vector.py:Vector.project", "solarwindpy/core/vector.py:Vector.cos_theta"]}
{"id": "C233", "title": "How a plasma is divided into species (violated for the temperature)", "statement": "Dividing one population into two species of the same kind, velocity and thermal speeds that share its density, or adding a species with zero density, changes no total: number and mass density, thermal pressure, beta, anisotropy, sound and Alfven speed, anisotropy factor, caani, specific entropy, bulk velocity, drift pressure and heat flux of the whole list are the same. A population divided in two has no drift pressure and no heat flux. Violated for the temperature of a '+' list: it grows by the temperature of the new species, even an empty one.", "quantifier": "all rows of measured data, all divisions, all other species and constants", "why_tests_cant": "all real data and lists of species", "anchors": ["solarwindpy/core/plasma.py:Plasma.number_density", "solarwindpy/core/plasma.py:Plasma.pth", "solarwindpy/core/plasma.py:Plasma.velocity", "solarwindpy/core/plasma.py:Plasma.pdynamic", "solarwindpy/core/plasma.py:Plasma.heat_flux", "solarwindpy/core/plasma.py:Plasma.temperature"]}
{"id": "C234", "title": "Electrons of a divided plasma (violated for the thermal speed)", "statement": "estimate_electrons gives the same density and velocity when a population is divided into two equal kinds or an empty species is added. Violated: when the divided population is the protons that set the temperature ('p1'), the squared electron thermal speed shrinks in proportion to the density left in 'p1'.", "quantifier": "all rows of measured data with positive charge density, all divisions", "why_tests_cant": "all real data and lists of species", "anchors": ["solarwindpy/core/plasma.py:Plasma.estimate_electrons"]}
{"id": "C235", "title": "The table of all activity indices (violated)", "statement": "get_all_indices gives one row for every time of every index (for the MgII index: the midnight of its day), in ascending order unless all indices share their times; every column holds in the row of a time its own value at that time and is missing otherwise, so that no value is lost, moved or invented. Violated: two MgII values on one day and no table can be made as soon as another index has a different time; an index stamped at another hour than midnight never shares a row with MgII, not even on the same day.", "quantifier": "all four series, all times", "why_tests_cant": "all series and times", "anchors": ["solarwindpy/solar_activity/__init__.py:get_all_indices"]}
{"id": "C236", "title": "The listing of the available labels (violated)", "statement": "available_labels lists every key of the tables exactly as often as it occurs, on lines of sorted names with a common initial (capitals together); reading the printed text back gives the names. A table with an empty name is IndexError. Violated: the capitalised names are removed from the caller's list; v, w and T are not listed although labels and units exist, three measurements are listed twice; solar-wind speed, ion, charge-state-ratio and elemental-abundance labels are not listed though their modules are searched; 'from solarwindpy.plotting.labels import *' is AttributeError.", "quantifier": "all tables of names; the tables and classes shipped", "why_tests_cant": "all lists of names", "anchors": ["solarwindpy/plotting/labels/__init__.py:_clean_str_list_for_printing", "solarwindpy/plotting/labels/__init__.py:available_labels", "solarwindpy/plotting/labels/__init__.py:__all__"]}
{"id": "C237", "title": "Histograms and the order of the data", "statement": "The bin edges chosen for a data set and every aggregate of it - any function, count and value limits and normalisation, one or two dimensions - are the same in whatever order its rows are listed.", "quantifier": "all data sets, permutations, edges, options", "why_tests_cant": "all data and orders", "anchors": ["solarwindpy/plotting/agg_plot.py:AggPlot.calc_bins_intervals", "solarwindpy/plotting/hist1d.py:Hist1D.agg", "solarwindpy/plotting/hist2d.py:Hist2D.agg"]}
{"id": "C238", "title": "Histograms of joined data sets (violated for the default aggregation)", "statement": "With the same edges every bin of the histogram of two joined data sets counts what the two histograms count together and is missing only where both are; means combine with the counts as weights. Violated for the default aggregation: two data sets with a constant value each are counted, but joined they are averaged if the constants differ.", "quantifier": "all pairs of data sets, edges", "why_tests_cant": "all data", "anchors": ["solarwindpy/plotting/hist1d.py:Hist1D.agg", "solarwindpy/plotting/agg_plot.py:AggPlot._agg_runner"]}
{"id": "C239", "title": "Coarser bins", "statement": "A bin whose ends are the p-th and q-th of finer edges counts exactly what the finer bins p, ..., q-1 count together, for all data (including values on edges, missing and infinite ones).", "quantifier": "all data sets, all non-decreasing edges", "why_tests_cant": "all data and edges", "anchors": ["solarwindpy/plotting/agg_plot.py:AggPlot.make_cut", "solarwindpy/plotting/hist1d.py:Hist1D.agg"]}
{"id": "C240", "title": "Marginals and units of histograms", "statement": "Summing a 2-D count histogram over its y bins gives the 1-D histogram of the rows whose y lies in the binned range. Changing unit and origin of x in data and edges alike changes no bin of an unnormalised histogram and divides every density by the scale factor.", "quantifier": "all data sets, edges, positive factors, offsets", "why_tests_cant": "all data and factors", "anchors": ["solarwindpy/plotting/hist2d.py:Hist2D.agg", "solarwindpy/plotting/hist1d.py:Hist1D.agg", "solarwindpy/plotting/hist1d.py:Hist1D._axis_normalizer"]}
{"id": "C241", "title": "Listing the issues of a repository (violated when issues are removed meanwhile)", "statement": "fetch_existing_issue_titles returns all titles, in order and once each, whatever their number, after one request more than there are pages; issues created by others while the pages are read hide none that was there at the start. Violated: an issue removed meanwhile moves the first title of the next page onto a page already read: it is not returned.", "quantifier": "all lists of titles, page sizes, concurrent changes", "why_tests_cant": "all schedules of another user", "anchors": ["plans/issues_from_plans.py:fetch_existing_issue_titles"]}
{"id": "C242", "title": "Creating issues from plans, again and again (violated for equal titles)", "statement": "A session adds issues and changes none: only issues of readable plans whose title no issue had. If the plans have distinct titles, no history of sessions - killed after any file, requests refused, answers lost although the issue was made - ever makes a second issue for a title. One uninterrupted session with answered requests makes an issue for every readable plan, and from then on no session changes anything; an unreadable plan stops nothing. Violated: two plans with the same title become two issues in one session, but only the first one does if the session is killed between them, for ever.", "quantifier": "all plans, trackers, histories of sessions, kill points, answers", "why_tests_cant": "all histories and crash points", "anchors": ["plans/issues_from_plans.py:main", "plans/issues_from_plans.py:create_issue"]}
{"id": "C243", "title": "Titles of issues (violated for names with a hyphen)", "statement": "The title of a numbered plan is the words of its directory, capitalised, an en dash, the number and the name; without name, the words of the file name; every title begins with the directory and the dash. Only what follows the last en dash (or, without one, the last hyphen) of a name counts. Violated: a hyphenated word loses its first half ('Non-linear fits' gives 'linear fits'), so names that differ only there give one title.", "quantifier": "all directory, file and plan names", "why_tests_cant": "all texts", "anchors": ["plans/issues_from_plans.py:infer_issue_title"]}
{"id": "C244", "title": "Reading a plan and finding its repository (violated)", "statement": "A plan '---' front matter '---' text is read back: YAML gets exactly the front matter, name and description are trimmed, the body is the text from the first context heading on, or all of it less leading line breaks. Missing markers are ValueError, front matter that is no mapping AttributeError. Owner and repository are found in git@host:owner/repo and any .../github.com/owner/repo with or without .git. Violated: three dashes inside the front matter end it and the remainder lands in the body; behind a trailing slash '.git' stays in the repository's name.", "quantifier": "all texts, parsers, remotes", "why_tests_cant": "all texts", "anchors": ["plans/issues_from_plans.py:load_markdown_plan", "plans/issues_from_plans.py:infer_owner_repo"]}
{"id": "C245", "title": "Which frames are spacecraft, and what they keep (violated)", "statement": "Spacecraft(data, name, frame) accepts exactly the non-empty frames with a time index and each position component once, no component of a complete velocity or Carrington location twice, and a known frame and name in any letter case; errors otherwise are ValueError (empty), KeyError (position incomplete), AssertionError (repeated component, no time index), then NotImplementedError. It keeps position, and velocity and Carrington location where complete, at the same times; other columns and the order of columns do not matter; a spacecraft made from the data of one is the same. Violated: a velocity or location lacking one component is dropped without notice and reading it is a KeyError.", "quantifier": "all frames, column orders, names", "why_tests_cant": "all column lists", "anchors": ["solarwindpy/core/spacecraft.py:Spacecraft.__init__", "solarwindpy/core/spacecraft.py:Spacecraft.set_data", "solarwindpy/core/spacecraft.py:Spacecraft.position", "solarwindpy/core/spacecraft.py:Spacecraft.velocity", "solarwindpy/core/spacecraft.py:Spacecraft.carrington"]}
{"id": "C246", "title": "Histories of setters on a spacecraft", "statement": "After any history of set_data and set_frame_name on a spacecraft, accepted or refused, a refused call has changed nothing, the data are those of the last accepted set_data, frame and name are known ones in capitals, the position can be read and distance2sun gives for every time the distance of that position in the present frame.", "quantifier": "all histories of calls with all arguments", "why_tests_cant": "all histories", "anchors": ["solarwindpy/core/spacecraft.py:Spacecraft.set_data", "solarwindpy/core/spacecraft.py:Spacecraft.set_frame_name", "solarwindpy/core/spacecraft.py:Spacecraft.distance2sun"]}
{"id": "C247", "title": "The conda recipe, written, updated and read back (python always differs)", "statement": "The recipe written for a project gives back, through extract_feedstock_deps, exactly python and the project's dependencies, trimmed and in order. Updating its version and hash gives the recipe written anew for them, so the dependencies survive every update. Compared with the project, every dependency is found unchanged - violated for python, which is always listed as only in the recipe.", "quantifier": "all names, versions, hashes and dependencies that are one line of text", "why_tests_cant": "all texts", "anchors": ["scripts/update_conda_recipe.py:render_meta", "scripts/update_conda_recipe.py:main", "scripts/compare_feedstock_deps.py:extract_feedstock_deps", "scripts/update_conda_feedstock.py"]}
{"id": "C248", "title": "Reading the dependencies of pyproject.toml (violated for extras)", "statement": "extract_pyproject_deps returns the quoted items of the first 'dependencies = [...]', trimmed, blank ones dropped, in order; a file without the word has none. Violated: an item with extras, name[extra], ends the list: neither it nor what follows is read.", "quantifier": "all texts", "why_tests_cant": "all texts", "anchors": ["scripts/compare_feedstock_deps.py:extract_pyproject_deps"]}
{"id": "C249", "title": "Provenance of a release (violated)", "statement": "A tag is confirmed iff git lists it, resolves it and answers, and, if master is required and git lists branches that contain it, the listing mentions master; the commit returned is what git resolved. A GitHub release is rejected iff it could be read and the digest of its first archive is not the hash. Violated: a branch whose name only contains 'master', no branch at all and a listing that failed count as master; a null digest, an unreadable release and further archives count as equal.", "quantifier": "all answers of git and gh", "why_tests_cant": "all answers", "anchors": ["scripts/update_conda_feedstock.py:CondaFeedstockUpdater.verify_git_tag_provenance", "scripts/update_conda_feedstock.py:CondaFeedstockUpdater.verify_github_release_integrity"]}
{"id": "C250", "title": "Verdict of the documentation checks (violated)", "statement": "A file passes iff it can be imported and none of its doctests fails; its counts are the sums over its doctests. The CI check exits with 0 iff every existing Python file passes; other files never matter. doctest_runner exits with 0 iff no doctest of an importable file fails. Violated: files that cannot be imported do not make doctest_runner fail; a targeted run counts files of both groups (fitfunctions/core/...) twice and skips all that are in neither.", "quantifier": "all files, outcomes of imports and doctests", "why_tests_cant": "all outcomes", "anchors": ["scripts/simple_doc_validation/doctest_runner.py:SimpleDocTestRunner", "scripts/simple_doc_validation/ci_integration.py:CIIntegration"]}
{"id": "C251", "title": "Adding :no-index: to the API pages (violated for partly marked pages)", "statement": "On a page as sphinx-apidoc writes it, each automodule block gets one line :no-index: behind its options and nothing else changes; a second run changes nothing; pages without automodule and the overview page are left alone. Violated: a page with :no-index: anywhere gets none for its other blocks.", "quantifier": "all pages, numbers of blocks, texts between them", "why_tests_cant": "all texts and repetitions", "anchors": ["docs/add_no_index.py:add_no_index_to_modules"]}
{"id": "C252", "title": "Turbulence with rounding (violated for the energy budget)", "statement": "With every operation rounded (to nearest or toward zero) and sums taken in any order, energies and energy ratios are nonnegative and sigma_c and sigma_r lie in [-1, 1]; reversing b exchanges e_plus and e_minus and negates sigma_c and cross_helicity bit by bit; v = b gives sigma_c exactly 1 and sigma_r exactly 0. To nearest even, a change of unit by a power of two changes no digit of sigma_c and sigma_r, and energies are exact up to three relative errors of 2^-53. Violated: e_plus + e_minus need not equal twice the total energy.", "quantifier": "all measured fluctuations, roundings, orders of summation; no overflow or underflow", "why_tests_cant": "all reals and all summation trees", "anchors": ["solarwindpy/core/alfvenic_turbulence.py:AlfvenicTurbulence.sigma_c", "solarwindpy/core/alfvenic_turbulence.py:AlfvenicTurbulence.sigma_r", "solarwindpy/core/alfvenic_turbulence.py:AlfvenicTurbulence.cross_helicity", "solarwindpy/core/alfvenic_turbulence.py:AlfvenicTurbulence.e_plus", "solarwindpy/core/alfvenic_turbulence.py:AlfvenicTurbulence.e_minus"]}
{"id": "C253", "title": "Vectors with rounding (violated for cos_theta)", "statement": "With rounding to nearest even in any precision and any order of summation, no component exceeds the magnitude, which is zero for the zero vector only and the absolute value for a vector along an axis; components of the unit vector lie in [-1, 1]; rho is at most mag; reversing a vector keeps mag and negates uv and cos_theta bit by bit, cos_theta is symmetric; scaling by a power of two scales mag and keeps uv; mag is exact up to three relative errors of 2^-53. Violated: cos_theta of a vector with itself can exceed 1, as for (3, 4, 12).", "quantifier": "all components that are numbers of the format, all precisions and orders; no overflow or underflow", "why_tests_cant": "all numbers and summation trees", "anchors": ["solarwindpy/core/vector.py:Vector.mag", "solarwindpy/core/vector.py:Vector.rho", "solarwindpy/core/vector.py:Vector.unit_vector", "solarwindpy/core/vector.py:Vector.cos_theta"]}
{"id": "C254", "title": "Densities and flows with rounding (violated for the order)", "statement": "With every operation rounded, the total density is at least every species' density, zero only if all are, grows with each of them, and of k species is exact up to k-1 relative errors of 2^-53, whatever the order of summation; of two species it does not depend on the order. The differential flow of exchanged species is exactly the reversed flow, and zero for equal velocities only. Violated: the total of three species can depend on the order.", "quantifier": "all nonnegative densities, velocities, numbers of species, orders; no overflow or underflow", "why_tests_cant": "all numbers and summation trees", "anchors": ["solarwindpy/core/plasma.py:Plasma.number_density", "solarwindpy/core/plasma.py:Plasma.dv"]}
{"id": "C255", "title": "Normalisations and fit qualities with rounding", "statement": "With every operation rounded, feature scaling gives exactly 0 at the minimum, exactly 1 at the maximum, and keeps range and order; scaling by a positive maximum gives at most 1 and exactly 1 at the maximum; positions of a distribution function rise from exactly 0 to exactly 1; rsq is at most 1, exactly 1 for a fit through every used point and exactly 0 for a fit by the mean; chisq_dof is nonnegative and exactly 0 for a fit through every point.", "quantifier": "all data, fits, weights, orders of summation; no overflow or underflow", "why_tests_cant": "all numbers and summation trees", "anchors": ["solarwindpy/solar_activity/sunspot_number/sidc.py:SIDC.run_normalization", "solarwindpy/plotting/hist2d.py:Hist2D._axis_normalizer", "solarwindpy/plotting/hist1d.py:Hist1D.construct_cdf", "solarwindpy/fitfunctions/core.py:FitFunction.rsq", "solarwindpy/fitfunctions/core.py:FitFunction._calc_popt_pcov_psigma_chisq"]}
{"id": "C256", "title": "Adaptive mesh with rounded midpoints", "statement": "With cell midpoints and the last edge computed in floating point of any precision (eight digits or more for the edge), the cells still partition the initial region after any number of steps, no cell of a finished mesh holds more than min_per_bin data, and mesh generation ends iff at no point of the region more than min_per_bin data coincide - the loss of precision in tiny cells never makes it run forever. The last edge lies beyond every edge.", "quantifier": "all data and edges that are numbers of the format, all limits, all precisions; no overflow or underflow", "why_tests_cant": "all data and unbounded numbers of steps", "anchors": ["solarwindpy/plotting/spiral.py:SpiralMesh.generate_mesh", "solarwindpy/plotting/spiral.py:SpiralMesh.process_one_spiral_step", "solarwindpy/plotting/spiral.py:SpiralPlot2D.calc_initial_bins"]}
{"id": "C257", "title": "Accuracy of plasma quantities with rounding", "statement": "With every operation rounded to nearest, in the order of the code, and pandas' compensated sums, the quantities of N species with positive density and thermal speed are positive and, up to at most so many relative errors of 2^-53, the exact values for the same data: mass density N, pressure 7N+1, temperature 7N, beta 7N+13, sound speed 4N+9/2, and, with powers accurate to j errors, Alfven speed N/2+j+8, entropy 7N+gamma(N+1)+j+4, anisotropy 14N+2j+3. In double precision a errors are a relative error of at most 1.2e-16 a.", "quantifier": "all positive data, constants and units, numbers of species, precisions of six digits or more, orders of summation; no overflow or underflow", "why_tests_cant": "all reals and all numbers of species", "anchors": ["solarwindpy/core/ions.py:Ion.pth", "solarwindpy/core/ions.py:Ion.temperature", "solarwindpy/core/plasma.py:Plasma.mass_density", "solarwindpy/core/plasma.py:Plasma.pth", "solarwindpy/core/plasma.py:Plasma.beta", "solarwindpy/core/plasma.py:Plasma.sound_speed", "solarwindpy/core/plasma.py:Plasma.ca", "solarwindpy/core/plasma.py:Plasma.specific_entropy", "solarwindpy/core/plasma.py:Plasma.anisotropy"]}
{"id": "C258", "title": "Centre of mass and drifts with rounding (violated for equal velocities)", "statement": "With every operation rounded to nearest and pandas' compensated sums, each component of the centre-of-mass velocity of N species is exact up to (8N+3) 1.2e-16 (double precision) of the mean size of that component; reversing all velocities reverses it exactly, for species at rest it is exactly zero, and it is not negative if no species' is; the dynamic pressure is nonnegative. Violated: for species with equal velocities the centre of mass need not have that velocity and the dynamic pressure can be positive, as for two proton beams of density 0.1 and speed 3.", "quantifier": "all velocities, positive densities, numbers of species, orders of summation; no overflow or underflow", "why_tests_cant": "all reals and all numbers of species", "anchors": ["solarwindpy/core/plasma.py:Plasma.velocity", "solarwindpy/core/plasma.py:Plasma.dv", "solarwindpy/core/plasma.py:Plasma.pdynamic"]}
{"id": "C259", "title": "Densities of histograms with rounding", "statement": "With every operation rounded to nearest, the density of a one-dimensional histogram (axnorm d, linear axis) integrates to 1 up to three relative errors of 2^-53, that of a two-dimensional one (d) up to five, and each column (cd) or row (rd) with data up to three, whatever the number of bins and data; a bin has density zero iff it is empty; of equally wide bins the one with more data has no smaller density.", "quantifier": "all counts below 2^53 with positive total, all increasing edges, all precisions; no overflow or underflow", "why_tests_cant": "all numbers of bins and data", "anchors": ["solarwindpy/plotting/hist1d.py:Hist1D._axis_normalizer", "solarwindpy/plotting/hist2d.py:Hist2D._axis_normalizer"]}
{"id": "C260", "title": "Shapes of the fit functions with rounding (violated for HingeAtPoint)", "statement": "With every operation rounded, for any monotone computed logarithm and exponential, the latter nonnegative and exact at 0: a Gaussian is exactly A at its centre, between 0 and A elsewhere and never larger farther away, the normalised and log-normal ones likewise; Exponential is exactly A at 0 and never rises, with a constant it never undershoots it, its distribution function is exactly 0 at 0, never falls and stays between 0 and y0; lines keep the sense of their slope; TwoLine and HingeMin rise to one point and fall after it, HingeMin is exactly 0 at its zeros, nonnegative between and nonpositive outside them, HingeMax mirrors it exactly, and at the hinge both are on the first line up to two relative errors; HingeAtPoint passes its hinge up to four relative errors of the sizes involved; HeavySide has its two levels up to the numbers next to the step. Violated: HingeAtPoint need not pass through its hinge exactly, as for (1,1) with slopes 3 and 1.", "quantifier": "all parameters and abscissae, all precisions; no overflow or underflow", "why_tests_cant": "all reals", "anchors": ["solarwindpy/fitfunctions/gaussians.py:Gaussian.function", "solarwindpy/fitfunctions/gaussians.py:GaussianNormalized.function", "solarwindpy/fitfunctions/gaussians.py:GaussianLn.function", "solarwindpy/fitfunctions/exponentials.py:Exponential.function", "solarwindpy/fitfunctions/exponentials.py:ExponentialCDF.function", "solarwindpy/fitfunctions/lines.py:Line.function", "solarwindpy/fitfunctions/hinge.py:TwoLine.function", "solarwindpy/fitfunctions/hinge.py:HingeMin.function", "solarwindpy/fitfunctions/hinge.py:HingeMax.function", "solarwindpy/fitfunctions/hinge.py:HingeAtPoint.function", "solarwindpy/fitfunctions/heaviside.py:HeavySide.function"]}
{"id": "C261", "title": "Drawn borders of a 2-D histogram (violated for smoothing options)", "statement": "plot_edges without smoothing draws, for every column with a displayed cell and from left to right, the centres of its highest and of its lowest displayed cell (10 to the centre on logarithmic axes); the lower curve is nowhere above the upper; limits keep exactly the points within them, ends included; if nothing is displayed ValueError is raised. Violated: window_length and polyorder given in sg_kwargs smooth the top border only, the bottom one and every later call with the same dictionary use the defaults; with fewer than 50 columns with data smoothing (the default) raises ValueError whatever options are given, and with default options exactly then.", "quantifier": "all histograms, bin edges, limits, smoothing options, filters", "why_tests_cant": "all numbers of columns and all values", "anchors": ["solarwindpy/plotting/hist2d.py:Hist2D.get_border", "solarwindpy/plotting/hist2d.py:Hist2D._plot_one_edge", "solarwindpy/plotting/hist2d.py:Hist2D.plot_edges"]}
{"id": "C262", "title": "Options of drawn 1-D histograms (violated)", "statement": "Hist1D.make_plot with a window and two aggregations draws the line with the caller's colour, style and label, its edges if asked for, and the band value minus to plus uncertainty with its own options or else those of the line; without a window one curve with error bars (horizontal when transposed), in steps unless told otherwise; all other options are handed on. Violated: a window when transposed or with one aggregation is a TypeError; drawstyle is ignored with a window; the window's options are honoured by the first plot only when the dictionary is used again; the abbreviation ds is a TypeError without a window.", "quantifier": "all data, options and window dictionaries, all histories of two plots with the same dictionary", "why_tests_cant": "all dictionaries", "anchors": ["solarwindpy/plotting/hist1d.py:Hist1D.make_plot"]}
{"id": "C263", "title": "Options of the drawn 1-D parameters (violated)", "statement": "TrendFit.plot_all_popt_1d with a window draws the line with the caller's options and the band parameter minus to plus uncertainty, in its own or the line's colour, and leaves the window's dictionary alone; without a window error bars, dashed by default. Violated: without a window any line style, by either name, is a TypeError; wkey=None, documented to disable error bars, is a NotImplementedError unless the window is disabled too.", "quantifier": "all data and options", "why_tests_cant": "all dictionaries", "anchors": ["solarwindpy/fitfunctions/trend_fits.py:TrendFit.plot_all_popt_1d"]}
{"id": "C264", "title": "Options of the plotted observations of a fit (violated)", "statement": "FFPlot.plot_raw and plot_used with a window draw the line through all the data, the band value minus to plus weight (the values themselves without weights) and, if edge_kwargs is given, its two borders; each takes the caller's options completed by the defaults, the band the line's colour unless it has its own, the borders the band's. Without a window one curve with error bars. Abbreviated names have the effect of the full ones, two names of one option are a TypeError with nothing drawn, markevery=None means the automatic spacing, and the caller's window dictionary is never changed. Violated: the abbreviation c in edge_kwargs is a TypeError, raised after line and band are drawn.", "quantifier": "all data with or without weights and all option dictionaries", "why_tests_cant": "all dictionaries", "anchors": ["solarwindpy/fitfunctions/plots.py:FFPlot.plot_raw", "solarwindpy/fitfunctions/plots.py:FFPlot.plot_used"]}
{"id": "C265", "title": "The combined plot of data and fit (violated)", "statement": "FFPlot.plot_raw_used_fit draws the raw observations, the used observations and the fit in this order, adds the text box if asked for, gives the shared draw style (steps-mid unless given) to the observations and not to the fit, and hands each group of options on. Violated: a draw style for the raw observations alone, by either name, is a TypeError with nothing drawn, and one for the used observations alone is a TypeError that leaves a plot with only the raw observations.", "quantifier": "all data, draw styles and option dictionaries", "why_tests_cant": "all dictionaries", "anchors": ["solarwindpy/fitfunctions/plots.py:FFPlot.plot_raw_used_fit", "solarwindpy/fitfunctions/plots.py:FFPlot.plot_fit"]}
{"id": "C266", "title": "Levels, labels and colours of contour plots (violated)", "statement": "Contour plots draw the caller's levels (or the defaults of the normalisation) and label exactly those, without the highest if skip_max_clbl; no labels unless asked for. Hist2D colours them by the caller's norm, by tenths for row or column normalisation, else by steps at the levels. Label options are the caller's or the defaults, and other options are handed on. Violated: with matplotlib's own levels (no levels given, and no normalisation or a density by rows or columns; always so for the adaptive mesh) skip_max_clbl is ignored and the highest is labelled; a second plot with the same clabel_kwargs ignores inline, inline_spacing and fmt.", "quantifier": "all levels, normalisations, norms, label options and histories of two plots", "why_tests_cant": "all lists of levels and dictionaries", "anchors": ["solarwindpy/plotting/hist2d.py:Hist2D.plot_contours", "solarwindpy/plotting/spiral.py:SpiralPlot2D.plot_contours"]}
{"id": "C267", "title": "Text of contour labels (violated)", "statement": "The label of a contour reads as its level: true for every level printed without exponent and for exponents not ending in 0. Violated: a level whose printed exponent ends in 0 (1e-10, 1e+20) loses the zeros and its label (1e-1, 1e+2) reads as a different number, in both plots; and Hist2D labels whole levels '1.' where it says '1' (the adaptive mesh writes '1').", "quantifier": "all printed numbers: any digits before and after the point, any exponent", "why_tests_cant": "all texts", "anchors": ["solarwindpy/plotting/hist2d.py:Hist2D.plot_contours", "solarwindpy/plotting/spiral.py:SpiralPlot2D.plot_contours"]}
{"id": "C268", "title": "Data behind the contours of the adaptive mesh", "statement": "SpiralPlot2D.plot_contours interpolates from exactly the cells with a finite value, each at its centre, which lies in the drawn cell also on logarithmic axes; the grid runs in equal steps from the lowest to the highest of these points; an unknown method, a mesh that does not match the values, and values that are all missing are ValueErrors.", "quantifier": "all meshes, values, scales and resolutions", "why_tests_cant": "all meshes", "anchors": ["solarwindpy/plotting/spiral.py:SpiralPlot2D.plot_contours", "solarwindpy/plotting/spiral.py:SpiralPlot2D._interpolate_to_grid", "solarwindpy/plotting/spiral.py:SpiralPlot2D._interpolate_with_rbf"]}
{"id": "C269", "title": "Joint plots of a 2-D histogram and its marginals (violated)", "statement": "make_joint_h2_h1_plot draws the 2-D histogram, its colour bar (on the caller's axes and with the caller's orientation, else horizontally below it), the histogram of x above it and that of y beside it with exchanged axes, both with the caller's options. Violated: ax in cbar_kwargs, accepted by the 2-D plot alone, is a ValueError that leaves a figure without marginals; plot_window for the marginals is always a TypeError; the caller's cbar_kwargs loses cax and orientation, so a second joint plot ignores them.", "quantifier": "all marginals, option dictionaries and histories of two plots", "why_tests_cant": "all dictionaries", "anchors": ["solarwindpy/plotting/hist2d.py:Hist2D.make_joint_h2_h1_plot", "solarwindpy/plotting/hist2d.py:Hist2D.make_plot"]}
{"id": "C270", "title": "Plots of a trend with its residuals (violated)", "statement": "TrendFit.plot_trend_fit_resid draws raw and used parameters in the given style (plain by default), the fit above them, the text box and both kinds of residuals in percent; plot_trend_and_resid_on_ffuncs adds the 1-D parameters last, plot_1d_popt_and_trend draws them first and the fit in limegreen unless given. Violated: every other keyword (options for the raw data, the fit, the residuals or the figure) is silently ignored by plot_trend_fit_resid, while ax in trend_kwargs is a TypeError with nothing drawn.", "quantifier": "all data and option dictionaries", "why_tests_cant": "all dictionaries", "anchors": ["solarwindpy/fitfunctions/trend_fits.py:TrendFit.plot_trend_fit_resid", "solarwindpy/fitfunctions/trend_fits.py:TrendFit.plot_trend_and_resid_on_ffuncs", "solarwindpy/fitfunctions/trend_fits.py:TrendFit.plot_1d_popt_and_trend"]}
{"id": "C271", "title": "Shapes of the remaining fit functions with rounding", "statement": "With every operation rounded, for any computed power that is monotone in its base and exact at 1 and any monotone exponential: power laws are exactly A at 1, never negative and keep the sense of their exponent, with a constant they never undershoot it, off-centre they are exactly 0 at the centre; Moyal lies between 0 and A times the computed e-1 and is symmetric; a Gaussian on a step is the Gaussian plus exactly y0 right and the rounded y1+y0 left of it, however close; a cut Gaussian is exactly 0 left and exactly the Gaussian at and right of the step; with a plateau exactly y1 left and the Gaussian right of it (at the step both are added); HingeSaturation with a flat plateau is exactly 0 at its zero, never above the plateau, never falling and at the hinge on it up to two relative errors; with a sloping one, and Saturation for any computed tangent, the hinge is passed up to four relative errors of the sizes involved.", "quantifier": "all parameters and abscissae, all precisions; no overflow or underflow", "why_tests_cant": "all reals", "anchors": ["solarwindpy/fitfunctions/power_laws.py:PowerLaw.function", "solarwindpy/fitfunctions/power_laws.py:PowerLawPlusC.function", "solarwindpy/fitfunctions/power_laws.py:PowerLawOffCenter.function", "solarwindpy/fitfunctions/moyal.py:Moyal.function", "solarwindpy/fitfunctions/composite.py:GaussianPlusHeavySide.function", "solarwindpy/fitfunctions/composite.py:GaussianTimesHeavySide.function", "solarwindpy/fitfunctions/composite.py:GaussianTimesHeavySidePlusHeavySide.function", "solarwindpy/fitfunctions/hinge.py:HingeSaturation.function", "solarwindpy/fitfunctions/hinge.py:Saturation.function"]}
{"id": "C272", "title": "Distance to the Sun with rounding", "statement": "With every operation rounded to nearest and squares added in any order, distance2sun of a heliocentric position is exact up to four relative errors of 2^-53, and of a geocentric position less than half way to the Sun, so of every satellite near the Earth, up to five; the centre of the Earth is exactly one astronomical unit away; a heliocentric distance is zero at the Sun's centre only; reflected positions have the same distance to the last digit, and a length unit scaled by a power of two scales the distance exactly.", "quantifier": "all positions, constants, precisions and orders of summation", "why_tests_cant": "all reals", "anchors": ["solarwindpy/core/spacecraft.py:Spacecraft.distance2sun"]}
{"id": "C273", "title": "A 2-D histogram with contours on top (violated)", "statement": "plot_hist_with_contours draws the histogram, contours with the same norm and colour map in the caller's styles, labels if asked for (exactly the drawn levels, without the highest if skip_max_clbl), and the colour bar on the named axes or those of the plot, in this order. The norm is the caller's, else by tenths for row or column normalisation and logarithmic for densities. Label options leave the caller's dictionary only if labels are drawn. Violated: limit_color_norm with counts or the total normalisation and no norm is an AttributeError with nothing drawn; cmap or norm in contour_kwargs is a TypeError that leaves the bare histogram; contour_kwargs loses linestyles, so a second plot ignores them; with a number of levels, which the documentation allows, the highest is labelled although it should be skipped, and labelling all is a TypeError without a colour bar.", "quantifier": "all normalisations, norms, levels, option dictionaries and histories of two plots", "why_tests_cant": "all dictionaries and levels", "anchors": ["solarwindpy/plotting/hist2d.py:Hist2D.plot_hist_with_contours", "solarwindpy/plotting/hist2d.py:Hist2D._get_contour_levels", "solarwindpy/plotting/hist2d.py:Hist2D._limit_color_norm"]}
{"id": "C274", "title": "Options of contour plots without effect (violated)", "statement": "Hist2D.plot_contours labels lists of levels as C266 says. Violated: limit_color_norm, documented, has no effect whatever; a number of levels is a TypeError unless there is a norm (given, or by row or column normalisation), and then its labels always include the highest and cannot be asked for with skip_max_clbl=False.", "quantifier": "all arguments", "why_tests_cant": "all arguments", "anchors": ["solarwindpy/plotting/hist2d.py:Hist2D.plot_contours"]}
{"id": "C275", "title": "Docstring coverage: what is counted (violated)", "statement": "docstring_coverage counts a parsed file once, every class once and every def or async def once, at any depth, as a method or as a function, and as documented if its docstring is not empty; in files with no class inside a class the methods are exactly the functions defined inside a class, under the innermost one. Listed as missing are exactly the file, the classes, the methods (private ones except __init__ left out) and the functions (private ones left out) without docstring. Violated: after a class inside a class, the remaining methods of the outer class are taken for functions and listed without the class; properties are never counted.", "quantifier": "all syntax trees", "why_tests_cant": "all trees", "anchors": ["scripts/docstring_coverage.py:DocstringCoverageAnalyzer.visit_Module", "scripts/docstring_coverage.py:DocstringCoverageAnalyzer.visit_ClassDef", "scripts/docstring_coverage.py:DocstringCoverageAnalyzer.visit_FunctionDef", "scripts/docstring_coverage.py:DocstringCoverageAnalyzer.analyze_properties"]}
{"id": "C276", "title": "Docstring coverage: the figures of the report (violated)", "statement": "The coverage of a file lies between 0 and 100 and is 100 exactly if the file and every class and function in it has a docstring. The report has one entry for each file that parses and is not named test_..., with totals over exactly these files; each entry is complete or in exactly one of the lists of high (below 50), medium (from 50) and low (from 80) priority. Violated: private functions without docstring lower the coverage but are not listed, so a file can stay incomplete with nothing to add; files that do not parse do not count at all.", "quantifier": "all packages", "why_tests_cant": "all packages", "anchors": ["scripts/docstring_coverage.py:generate_coverage_report", "scripts/docstring_coverage.py:analyze_module"]}
{"id": "C277", "title": "Docstring baseline (violated)", "statement": "The baseline puts every docstring into exactly one format (blank, NumPy, Google, informal), so the formats add up to the documented objects; the four printed shares lie between 0 and 100. Violated: each method is counted twice, as a function and as a method, in the code objects, the documented ones and the missing docstrings; a docstring without a line that starts with four blanks and a dash - every regular one, as the indentation is removed before - never counts as NumPy; a package in which no class has a method ends in a ZeroDivisionError, and only such a package.", "quantifier": "all syntax trees, docstrings and packages", "why_tests_cant": "all trees", "anchors": ["scripts/docstring_baseline_analysis.py:DocstringFormatAnalyzer.analyze_docstring_format", "scripts/docstring_baseline_analysis.py:DocstringFormatAnalyzer.visit_ClassDef", "scripts/docstring_baseline_analysis.py:DocstringFormatAnalyzer.visit_FunctionDef", "scripts/docstring_baseline_analysis.py:main"]}
{"id": "C278", "title": "Docstring validation (violated)", "statement": "A file without issues parses and has docstrings for itself, for all its classes, each with an Examples section, and for all functions except private ones (__init__ is not private). A component without docstring has exactly the issue that it is missing; functions and methods with fewer than five lines have none, longer ones lack examples exactly if there are more than 15 lines or many parameters and no Examples section, and units or equations exactly if their keywords occur and the patterns do not. A section is its name followed by a line of dashes. Violated: the required sections (Parameters, Returns, Attributes) are never checked, for any package.", "quantifier": "all syntax trees, docstrings, packages and answers of the unit, equation and parameter patterns", "why_tests_cant": "all trees and texts", "anchors": ["scripts/validate_docstrings.py:SolarWindPyDocstringValidator.validate_docstring_structure", "scripts/validate_docstrings.py:SolarWindPyDocstringValidator._validate_scientific_requirements", "scripts/validate_docstrings.py:SolarWindPyDocstringValidator._has_section", "scripts/validate_docstrings.py:DocstringASTVisitor", "scripts/validate_docstrings.py:validate_file"]}
{"id": "C279", "title": "Anisotropic Alfven speed with rounding", "statement": "With every operation rounded, afsq is exactly 1 and caani equals ca to the last bit for species with equal parallel and perpendicular thermal speeds; afsq never falls with the perpendicular and never rises with the parallel pressure, is at least (at most) 1 if the perpendicular pressure is at least (at most) the parallel one - for one species: thermal speed - and caani is then at least (at most) ca; reversing the field changes no bit. Rounded to nearest, afsq of N species is 1 + mu0 (p_per - p_par)/B^2 up to 7N+11 relative errors of the sum of the sizes of the three terms: (7N+11) 1.2e-16 in double precision.", "quantifier": "all data, constants, numbers of species, orders of summation; accuracy for positive densities and thermal speeds; no overflow or underflow", "why_tests_cant": "all reals", "anchors": ["solarwindpy/core/plasma.py:Plasma.afsq", "solarwindpy/core/plasma.py:Plasma.caani"]}
{"id": "C280", "title": "Heat flux with rounding (violated for species that move together)", "statement": "With every operation rounded and numpy's cube odd and not negative on positive numbers, reversing all velocities, or the field, reverses heat_flux of every species and of their sum to the last bit; without rounding it is that of C26; species at rest have none; a species' heat flux is never against its parallel drift from the centre of mass. Violated: two proton beams of density 0.1 that both move with 3 along the field have a negative heat flux, each and together, where the exact one is zero.", "quantifier": "all data, constants, numbers of species, orders of summation; no overflow or underflow", "why_tests_cant": "all reals", "anchors": ["solarwindpy/core/plasma.py:Plasma.heat_flux", "solarwindpy/core/vector.py:Vector.project"]}
{"id": "C281", "title": "Statistics of an adaptive mesh", "statement": "calculate_bin_number succeeds for every mesh with cells, whatever the data and the order of its parallel loop, and never reports unvisited or repeatedly visited bins nor raises for cells without value; without cells it is a ValueError. The frequencies it reports are the numbers of data in the cells, the fill values exactly the data in no cell (reported if there are any), and together they are all data; the largest population is that of a cell and none is larger, and the empty bins are the cells without data. For a generated mesh the largest population is at most min_per_bin and the fill values are the data outside the initial region.", "quantifier": "all meshes of cells that do not overlap, data, thread schedules", "why_tests_cant": "all data and schedules", "anchors": ["solarwindpy/plotting/spiral.py:SpiralMesh.calculate_bin_number", "solarwindpy/plotting/spiral.py:calculate_bin_number_with_numba"]}
{"id": "C282", "title": "Stability bins with rounding", "statement": "With every operation rounded to nearest (the table of coefficients too), each row with non-negative or missing beta still gets exactly one bin and no error, chosen by the computed thresholds as in C60, with bins >= 3 only above and <= 1 only below anisotropy 1. Whatever is unstable stays so at every larger beta and every anisotropy farther out, so along beta the bin never comes closer to 'Stable' and never changes side. Above the pole a computed threshold differs from the exact one of the coefficients as read by at most b+j+3 rounding errors of 1 + |a| (beta-c)^-b, j being the error of numpy's power; rows farther from the threshold than that are classified as without rounding. Without rounding the bin is that of C60.", "quantifier": "all growth rates, beta >= 0 (missing, infinite), anisotropies, precisions of at least 3 bits; order for powers that do not decrease in the base, accuracy for powers with j relative errors; no overflow or underflow; pandas < 2", "why_tests_cant": "all reals", "anchors": ["solarwindpy/instabilities/verscharen2016.py:beta_ani_inst", "solarwindpy/instabilities/verscharen2016.py:StabilityCondition.calculate_stability_criteria"]}
{"id": "C283", "title": "Coulomb logarithm with rounding", "statement": "With every operation rounded, exchanging the two species changes no bit of lnlambda. Rounded to nearest and with np.log within one rounding error, lnlambda of two like-charged species is within 165 units of rounding (2e-14 in double precision) of the exact one, if that is between -10 and 70. Without rounding it is that of C22.", "quantifier": "all data with positive densities and thermal speeds, constants, precisions of at least 10 bits; no overflow or underflow", "why_tests_cant": "all reals", "anchors": ["solarwindpy/core/plasma.py:Plasma.lnlambda"]}
{"id": "C284", "title": "Collision rate of slow drifts with rounding (violated)", "statement": "nuc of two species should tend to a positive limit as their drift gets small. With every operation rounded it does not: whenever the computed drift is positive and at most 2^-28 of the combined thermal speed, the difference of the error function and its tangent is zero or at least the last place of the drift, so the longitudinal diffusion rate, exactly between 0.7 and 1.13, is computed as 0 or at least 7 in absolute value - the collision rate is zero, six times too large or negative. Without rounding it is that of C22.", "quantifier": "all data with such a drift and non-negative Coulomb logarithm, constants, orders of summation, library functions with up to six percent error; double precision; no overflow or underflow", "why_tests_cant": "all reals", "anchors": ["solarwindpy/core/plasma.py:Plasma.nuc"]}
{"id": "C285", "title": "Estimated electrons with rounding (violated for protons alone)", "statement": "With every operation rounded to nearest, estimate_electrons of N ion species with positive charge refuses the same plasmas as without rounding; the density has at most N relative errors, a component of the velocity is within (8N+3) 1.2e-16 of the charge-weighted mean size of that component, the thermal speed has at most (N+j)/2 + 3 errors (j: error of numpy's power). A row is masked exactly if it has no ions. Reversing all velocities reverses that of the electrons to the last bit, ions at rest have electrons at rest, electrons move backward only if an ion does, and densities in a unit that is a power of two as large change no bit of velocity and thermal speed. Without rounding it is the estimate of C25. Violated: electrons of a plasma of protons alone need not move with them - protons of density 0.1 and velocity 3 get electrons of density 0.1 and velocity 3 + 2^-51.", "quantifier": "all data with positive (masking and sign: non-negative) densities, constants, numbers of species, orders of summation, precisions of at least 6 bits; no overflow or underflow", "why_tests_cant": "all reals", "anchors": ["solarwindpy/core/plasma.py:Plasma.estimate_electrons"]}
{"id": "C286", "title": "Projections with rounding (violated for parallel vectors)", "statement": "With every operation rounded to nearest, in any order of summation, project of a vector v on a non-zero b gives a parallel component within 8 and a perpendicular one within 20 units of rounding (2^-53 in double precision) of the length of v; the perpendicular one is never negative. Reversing v or b negates the parallel and keeps the perpendicular component to the last bit; scaling v by a power of two scales both, scaling b changes nothing. If b points along an axis, the parallel component is the component of v and the perpendicular one the magnitude of the other two, to the last bit. Without rounding both are those of the exact model. Violated: a vector need not be parallel to itself - (2, 3, 6) on itself gives less than 7 and a positive perpendicular component.", "quantifier": "all vectors, orders of summation, precisions of at least 6 bits (axis: components that are numbers of the format); no overflow or underflow", "why_tests_cant": "all reals", "anchors": ["solarwindpy/core/vector.py:Vector.project"]}
{"id": "C287", "title": "Ratio of distribution functions with rounding", "statement": "With every operation rounded, reversing all velocities, or the field, changes no bit of vdf_ratio; it is never below the logarithm of the coefficient, equal to it for populations of the same mass per charge that move together, and equal to the drift term for populations of equal density and thermal speeds; it never falls with the density of the beam. In units of density, or of speed, that are a power of two as large no bit changes. Rounded to nearest, the coefficient has at most seven relative errors. Without rounding the ratio is that of C24, for any positive charges.", "quantifier": "all data, constants, orders of summation, logarithms that return numbers of the format (order: that do not decrease; equal populations: with log 1 = 0); coefficient for positive densities and thermal speeds; no overflow or underflow", "why_tests_cant": "all reals", "anchors": ["solarwindpy/core/plasma.py:Plasma.vdf_ratio"]}
{"id": "C288", "title": "Dynamic import tests do not disturb each other", "statement": "test_dynamic_imports.py tests every module as if it were the first: its result is that of the import from the state at the start, the tests leave the loaded modules of the package as they were, and the circular imports listed are exactly the modules whose import fails with an ImportError that says so. Each import order and each pair of modules is tested as in a fresh interpreter. The orders are alphabetical, reverse and base modules first, each with every module, and at most ten of a shuffled copy; the errors of an order are those of its modules with the ones before loaded. The pairs are those of the first six key modules, in order: fifteen, or all of fewer modules. Successes and failures add up to the tests, and errors to the failures, whatever imports do.", "quantifier": "all packages, lists of modules, loaded modules, shuffles, interpreters (counts: any; the rest: an import unloads nothing and depends on the loaded modules of the package only)", "why_tests_cant": "all histories of imports", "anchors": ["scripts/test_dynamic_imports.py:DynamicImportTester.test_individual_import", "scripts/test_dynamic_imports.py:DynamicImportTester.test_import_order_variations", "scripts/test_dynamic_imports.py:DynamicImportTester.test_cross_imports"]}
{"id": "C289", "title": "Verdict of the dynamic import tests (violated)", "statement": "The modules tested are the files below the package outside directories tests and __pycache__ and not called test_..., in alphabetical order, named by package, directories and file. 'No circular imports detected' is reported exactly if no module on its own fails as circular. Violated: circular imports found for pairs or orders of modules do not count, so a package with one is reported clean; a name that is merely missing counts as circular; in a checkout below a directory tests no module is tested and the report is clean; modules of other packages whose names begin with that of the package are unloaded; given the package directory as argument the program stops with an AttributeError.", "quantifier": "all packages, files, interpreters, shuffles", "why_tests_cant": "all inputs", "anchors": ["scripts/test_dynamic_imports.py:DynamicImportTester.run_comprehensive_test", "scripts/test_dynamic_imports.py:DynamicImportTester.discover_modules", "scripts/test_dynamic_imports.py:main"]}
{"id": "C290", "title": "Settings of the conda automation (violated)", "statement": "After conda_config is imported, an integer in CONDA_AUTOMATION_TIMEOUT is the timeout of the PyPI check and of GitHub, anything else leaves 10 and 15 seconds; dry runs are the default exactly for true, 1 or yes in any case; reading the environment again changes nothing; automation is enabled and pre-releases are skipped. Different packages have different feedstocks, different releases different archives and JSON addresses (names and versions without a slash); an empty version means the package, an empty name has no archive. Violated: the timeout in PYPI_CONFIG stays 10 seconds whatever the environment, as do those of downloads and availability; CONDA_AUTOMATION_GITHUB_TOKEN, though documented, has no effect; any value of CONDA_AUTOMATION_DEBUG, also 0 or false, turns debugging on; the archive update_conda_feedstock.py downloads for its hash is the one these settings name only for packages whose name does not begin with a capital letter.", "quantifier": "all environments, package names, versions, any int()", "why_tests_cant": "all inputs", "anchors": ["scripts/conda_config.py:load_env_config", "scripts/conda_config.py:get_pypi_source_url", "scripts/conda_config.py:get_pypi_json_url", "scripts/conda_config.py:get_feedstock_repo", "scripts/update_conda_feedstock.py:CondaFeedstockUpdater.calculate_sha256"]}
{"id": "C291", "title": "Reports of the documentation tests (violated)", "statement": "The text report of a run's summary has its numbers, says PASSED exactly if no test failed and gives the success rate exactly if there was a test; the rate lies between 0 and 100 and is 100 exactly if none of them failed. The text cannot be made (KeyError) exactly for a report with tests and no count of failures. In any report missing counts are 0 and a missing verdict is FAILED. The criteria of a run's results are: examples work iff no test failed, sustainable iff files were processed besides. Violated: the text of the results themselves always says FAILED; the criteria of a run's summary are the same for every run (examples work, not sustainable); a run in which no file could be imported is sustainable and PASSED; without tests the rate of a run is 0.", "quantifier": "all runs, files, reports", "why_tests_cant": "all inputs", "anchors": ["scripts/simple_doc_validation/validation_utils.py:generate_validation_summary", "scripts/simple_doc_validation/validation_utils.py:validate_essential_criteria", "scripts/simple_doc_validation/doctest_runner.py:SimpleDocTestRunner.generate_summary"]}
{"id": "C292", "title": "Accuracy of the ratio of distribution functions", "statement": "With every operation rounded to nearest, in any order of summation, the drift term of vdf_ratio is within 110 units of rounding (2^-53 in double precision) of the square of S, the sum of the lengths of the two scaled velocities in units of the smaller thermal speed of the core. The ratio is within one unit of its own size plus, times one unit more than 1, the error of the logarithm, 8 units and 110 S^2 units. Without rounding both are the exact ones.", "quantifier": "all data with positive densities, thermal speeds and charges and a non-zero field, constants, orders of summation, logarithms, precisions of at least 6 bits; no overflow or underflow", "why_tests_cant": "all reals", "anchors": ["solarwindpy/core/plasma.py:Plasma.vdf_ratio"]}
{"id": "C293", "title": "Count of documentation examples (violated)", "statement": "count_documentation_examples counts, over the readable files not below __pycache__ (hidden Python files left out), the code blocks of reStructuredText files and the prompts of Python files - in each text the greatest number of occurrences that do not overlap - and the files read. The order in which files are found does not matter, and counts of directories without a common file add up. Violated: each mark of an unresolved merge, >>>>>>>, counts as two doctest prompts.", "quantifier": "all directories and texts", "why_tests_cant": "all texts and orders", "anchors": ["scripts/simple_doc_validation/validation_utils.py:count_documentation_examples"]}
