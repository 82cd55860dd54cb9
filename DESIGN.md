# Formal model of SolarWindPy in Lean 4

## Trusted base
* Lean 4.33.0's kernel and, transitively, the three standard axioms `propext`, `Classical.choice`,
  `Quot.sound` (no others; no `native_decide`/`bv_decide`). Mathlib is used as a library of
  definitions and kernel-checked lemmas only.
* The reading of the Python, pandas and numpy semantics written down in the model definitions
  (each cites the file and lines in /repo it models). Nothing in the sandbox can run that code, so the
  correspondence model <-> Python is by inspection.

## Number model
* `Fl` (`Verif/Fl.lean`): IEEE-754 values *without rounding*: `nan`, `+inf`, `-inf` and exact reals.
  Arithmetic follows IEEE for the special values (`inf-inf`, `0*inf`, `0/0`, `inf/inf` are `nan`,
  `x/0` is signed infinity); comparisons with `nan` are false. Not modelled there: rounding, overflow of
  finite results, signed zeros. pandas' NaN-skipping reductions are modelled as written
  (`sum` of an all-NaN row is 0, etc.).
* Purely analytic functions (fit functions, angles) are modelled on `Real`.
* `Rounded` (C252-C260) models finite results with a rounding after every operation: any monotone, odd, idempotent rounding that
  keeps 1, and round-to-nearest-even with `p` binary digits (proved to be the nearest number, `binary_nearest`); sums in any order.
  Exponents are unbounded: no overflow or underflow; a quotient by zero is outside those claims.
* Strings are Lean lists of characters or `String`s; Python's `sorted` is a merge sort by code point.

## Error model
Python exceptions are values (`Except PyErr`), one constructor per exception class, so "raises X iff"
is a statement about the returned value.

## Axioms
Every theorem rests on at most `propext`, `Classical.choice`, `Quot.sound`; AXIOMS.md (generated by
`tools/axioms.py` from `#print axioms`) lists them theorem by theorem.

## What is modelled
| model files (lean/Verif) | code |
|---|---|
| Fl, PyStr | float arithmetic, Python strings, errors (Props/FlSpec validates `Fl` against IEEE facts) |
| Species, PlasmaData, PlasmaIO, PlasmaObj, PlasmaPhys, ConstTab, IonPhys | core/base.py, core/plasma.py, core/ions.py |
| Vector, Containers, Units, Spacecraft, SpacecraftData, AbundanceTable, Abundances, Turbulence, TurbPlasma, TurbAlign | core/vector.py, tensor.py, units_constants.py, spacecraft.py, alfvenic_turbulence.py, abundances.py, data/asplund*.csv |
| FitCore, FitRun, FitReport, FitCov, FitFuncs, FitGuess, TrendFit, TexInfo, TexNum, TexFull, Formulas, FFPlot | fitfunctions/ |
| Tools, LogNormal, Instability | tools/, instabilities/ |
| ActivityCache, Activity, Extrema, SsnTable, Sidc, Products, Indices, Icme | solar_activity/ |
| Hist, HistPlot, HistEdges, DrawOpts, FFDraw, JointDraw, Contours, HistContours, HistIndex, PlotState, Spiral, SpiralStats, SpiralAgg, PlotTools, SaveSel, Orbit, Labels, LabelTex, Labels3, LabelGraph, LabelList | plotting/ |
| Scripts, Imports, ImportTest, ConfScripts, DocCount, Plans, Recipe, DocScripts, DocTree | scripts/, plans/, docs/add_no_index.py |
| Rounded, RoundMesh, RoundPhys, RoundPhys2, RoundColl, RoundElec, RoundProj, RoundInsta, RoundHist, RoundFit, RoundFit2 | the arithmetic of core/vector.py, alfvenic_turbulence.py, parts of plasma.py, sidc.py, hist1d.py, hist2d.py, spiral.py, fitfunctions (core and all functions), spacecraft.py (distance), verscharen2016.py with rounding |
| Repro | reproducibility.py (git answers as described in the file) |

Every definition cites the lines it models and says where it simplifies.

## What is not modelled
* Everywhere: matplotlib drawing, logging and logged statistics, numba code generation, rounding of floats (except C252-C260, C271, C272, C279, C280, C282-C287, C292), overflow of finite floats,
  HDF5/CSV byte formats, network answers (arbitrary oracles), pandas alignment between *different* indices (except turbulence, C222, histograms, C228, and projections, C232), Python's
  recursion limit, non-ASCII case conversion, `\d` and white space beyond ASCII.
* core: component order of an ion cut from an unsorted frame; in histories of setters a time-index mismatch between stale ions and data when estimating electrons.
* fitfunctions: SciPy's optimiser, SVD and `polyfit` are oracles (what they are given and what is done with their answer is
  modelled); `tan` at its poles; integer powers of negative abscissae; `tabulate` in the fit report; negative zero and
  floats of more than 15 digits in annotations.
* tools: `swap_protons` with different column lists for the two populations.
* solar_activity: hand-entered bad timestamps of F10.7; aliasing of ICME copies and SIDC
  frames; SIDC duplicate target times and empty concatenations; ICME statistics beyond durations.
* plotting: string rules for bins (`knuth`, `fd`), means of infinities; contour interpolation and drawing of the spiral
  plot; the Gaussian kernel is an arbitrary non-negative kernel; `string.Template` beyond `$name`; `Path` normalisation
  (leading `//`); pathlib's suffix rule after Python 3.13.
* scripts: `packaging.version` beyond the bump pattern; parsing by `ast` and report texts of the import scripts;
  `conda_config.py` (no other script uses it); the unit, equation and parameter patterns of `validate_docstrings.py` (oracles, C278) and the printed text of the docstring scripts.

## Properties, and how each is modelled and proved
<!-- TABLE -->
| id | property | model and proof |
|---|---|---|
| C01 | Species arguments are canonicalised | string-list model of _conform_species; spec = sortedness + permutation + iff on the error; induction on lists via mergeSort lemmas |
| C02 | Species availability check | model over available-species list; positive iff for non-empty names and a proved counterexample for the empty name |
| C03 | Setting the species of a plasma | list-of-char-list model of the two setters; theorem about pieces and order |
| C04 | drop_species keeps exactly the rest | frame model: list of columns plus row function; filter lemmas |
| C05 | set_data keeps exactly the plasma columns | frame model of the filter/dedup/concat pipeline; membership iff |
| C06 | Scalar thermal speed is the right average of the measured components | exact-real float model; nlinarith/sqrt lemmas |
| C07 | Missing thermal-speed components must not produce data (violated) | NaN-skipping sum in the float model; theorem giving the fabricated value, so the negation of the desired property holds for every such row |
| C08 | Save then load is the identity on plasma data | store = saved frame; load = set_data of the filtered frame; idempotence of set_data's filter |
| C09 | Attaching auxiliary/spacecraft data is validated and atomic | state machine with exceptions as values; invariant by induction over call histories |
| C10 | Total number density | row model over IEEE-with-exact-reals floats; induction on species list |
| C11 | Mass density | same row model |
| C12 | Centre-of-mass velocity carries the total momentum | induction over species list in reals |
| C13 | Missing velocities bias the centre of mass (violated) | closed form proved; differs from both acceptable answers |
| C14 | Differential flow is antisymmetric | row model with NaN: negation commutes with NaN; the accepted self-comparison as a proved witness |
| C15 | Thermal pressure and temperature are additive and consistent | row model; sqrt elimination |
| C16 | Plasma beta | row model with symbolic unit factors and their positivity |
| C17 | Anisotropy | row model |
| C18 | Dynamic (drift) pressure | reals; Koenig-type identity by field_simp/ring, non-negativity by induction |
| C19 | Dynamic pressure with m/q projection of three or more species crashes (violated) | control-flow model with unbound variable as an error value |
| C20 | Alfven and sound speed | row model |
| C21 | Anisotropy factor | row model, induction on species |
| C22 | Coulomb logarithm and collision rate are symmetric where they must be | row model with erf as an uninterpreted function |
| C23 | Coulomb number | row model + option spacecraft |
| C24 | VDF ratio is the log ratio of two bi-Maxwellians | independent spec: bi-Maxwellian density; log/exp algebra |
| C25 | Estimated electrons are quasi-neutral and current-free | row model and species-set control-flow model |
| C26 | Heat flux | row model |
| C27 | Kinetic energy flux is unusable (violated) | units table as a finite map; lookup fails |
| C28 | Specific entropy and sound speed are consistent | Real.rpow |
| C29 | Vector magnitude and spherical coordinates | floats + Complex.arg for arctan2 |
| C30 | Latitude and colatitude are exchanged (violated) | arctan2 via Complex.arg; show the returned 'colatitude' c satisfies z = r sin c and equals the true colatitude only on the 45-degree cone |
| C31 | Unit vectors and projections | reals |
| C32 | cos_theta is a cosine | reals, Lagrange identity |
| C33 | Calling a vector or tensor by component always fails (violated) | attribute lookup model |
| C34 | Distance to the Sun | reals + triangle inequality |
| C35 | Abundance ratio | reals + float NaN |
| C36 | Elsasser energies obey their identities | floats, ring |
| C37 | Normalised turbulence quantities are bounded and consistent | Cauchy-Schwarz |
| C38 | Turbulence species strings are normalised | string-list model; idempotence |
| C39 | Fluctuations are mean-free | list model of rolling mean with trailing window and min_periods |
| C40 | Fit observations are selected exactly | float lists; membership iff and sublist |
| C41 | Invalid fit input is rejected | shape model |
| C42 | Insufficient data detection | outcome model |
| C43 | A failed fit leaves earlier results untouched | state machine with optimiser as an oracle; induction on histories |
| C44 | Residuals and R^2 | real lists |
| C45 | Chi-square per degree of freedom | real lists |
| C46 | Trend fits partition the functions into good and bad | list filter model |
| C47 | Parallel and sequential 1-D fits agree (violated) | model both paths over the mask model of C40; counterexample plus equality when nothing is excluded |
| C48 | n_jobs with at most one column crashes (violated) | control-flow model |
| C49 | Gaussian fits hide their failures from trend fits (violated) | compose outcome models |
| C50 | Line intercepts | field_simp |
| C51 | Initial guess of a line fit has the wrong sign (violated) | median of a constant list |
| C52 | Hinge functions are continuous and pass through their hinge | min/max lemmas |
| C53 | TwoLine and Saturation agree | tan/arctan identities |
| C54 | Step functions | case analysis |
| C55 | Gaussian family | Mathlib Gaussian integral |
| C56 | Exponential and power-law families | Real.exp/rpow lemmas |
| C57 | Math-mode escaping of fit labels | char lists |
| C58 | Fit report is consistent with the fit | finite-map model |
| C59 | Proton population swapping | row model with NaN comparisons |
| C60 | Instability thresholds and bins | reals with NaN for beta below the pole |
| C61 | Cached data freshness | state machine over directory listings |
| C62 | A crash between write and delete wedges the loader (violated) | small-step model of the download, crash after any prefix |
| C63 | Data age accessor (violated) | attribute-map model |
| C64 | Interpolation never extrapolates | piecewise-linear model over sorted lists |
| C65 | Cycle intervals tile time | sorted lists; pd.cut model |
| C66 | Sunspot bands | arange model |
| C67 | Activity normalisation | real lists |
| C68 | Extrema validation keeps separated extrema | list model |
| C69 | ICME containment | argsort+searchsorted model vs existential spec |
| C70 | ICME interval end | option model |
| C71 | ICME spacecraft filter | list + lower-case model |
| C72 | ICME cache staleness | state machine |
| C73 | Histogram binning | sorted edges, right-closed intervals |
| C74 | Histogram counts are conserved | list model |
| C75 | Density normalisation integrates to one on linear axes | real lists |
| C76 | Row/column/total normalisation of 2-D histograms | finite maps |
| C77 | Plotted-data selection in 2-D (violated) | superset theorem, 1-D exactness, 2-D counterexample |
| C78 | Empirical CDF | sorted list |
| C79 | Adaptive mesh cells partition the plane region | invariant by induction on steps |
| C80 | Adaptive mesh respects the population limit | fuel-indexed iteration; invariant and non-termination |
| C81 | Edge extension keeps the maximum inside | max lemma |
| C82 | Grid layout helper | Nat.sqrt + descending search |
| C83 | Shared-colourbar layout | index arithmetic |
| C84 | NaN-aware smoothing | non-negative kernel model with finite sums |
| C85 | Label ordering (violated in part) | string order |
| C86 | Ratio labels | finite map |
| C87 | Ion labels | string model |
| C88 | Version bump always moves forward | version order model |
| C89 | PyPI wait loop is bounded | clock/oracle loop |
| C90 | Requirement translation | char lists |
| C91 | A plasma saved without attachments cannot be loaded by default (violated) | HDF store model; error for every such plasma |
| C92 | Saving leaves stale attachments in the file (violated) | HDF store model; two consecutive saves |
| C93 | Tensor.set_data ignores its argument (violated) | object-state model |
| C94 | Missing thermal data become zero in single-string queries (violated) | IEEE model with NaN skipping sums |
| C95 | Coulomb logarithm of opposite charges is NaN (violated) | IEEE model; sign argument |
| C96 | Missing spacecraft positions (violated) | row model with NaN-skipping sum |
| C97 | Turbulence energies with missing fluctuations (violated) | row model with NaN-skipping sums |
| C98 | Rectified turbulence version | set_data model with polarity |
| C99 | Half-updated fit after a covariance failure (violated) | state machine with arbitrary optimiser outcomes |
| C100 | LaTeX parameters of log-normal and CDF fits (violated) | property-resolution model along the class hierarchy |
| C101 | Moyal curve and reported formulas (violated) | closed-form model of curve and formula |
| C102 | Initial guesses with one-sided data (violated) | p0 model on lists of observations |
| C103 | User guesses are used (violated) | p0 model |
| C104 | Flat plateaus (violated) | IEEE model 0*inf |
| C105 | Initial guess of Gaussian fits | weighted-moment model; induction on the data |
| C106 | Extra annotation lines are the caller's (violated) | model returns the caller's list after the call |
| C107 | Translation of parameter names to LaTeX | dictionary model; induction |
| C108 | Stability analysis runs (violated) | pandas version as a parameter of the model |
| C109 | Missing measurements and legend of the stability plot (violated) | row model; legend filled column by column |
| C110 | A loader object can be reused (violated) | state machine with a loader object |
| C111 | The cache works in any directory and at any clock time (violated) | dates found in the path as a parameter |
| C112 | Default cut by interval (violated) | pd.cut model with the overlap check |
| C113 | Edge labels agree with the intervals | row-wise equivalence |
| C114 | Extremum labels | sequence of masked assignments |
| C115 | Default threshold (violated) | callable kinds as an inductive type |
| C116 | One extremum per excursion | group model; induction over excursions |
| C117 | Extrema tables of series starting with a maximum (violated) | composition of the two models |
| C118 | Standard error of missing sunspot deviations (violated) | IEEE model; order of the two steps |
| C119 | Bands about extrema | interval model |
| C120 | Duplicate and unordered download times | list recursion with the times seen |
| C121 | Containment and range queries agree | from C69 and C70 |
| C122 | Crash while caching the catalogue (violated) | induction over the history |
| C123 | Catalogue summary | min/max of lists with missing values |
| C124 | Fine bins below the rounding precision (violated) | rounding to nearest; induction over the edges |
| C125 | Normalisation keys (violated in 1-D) | string model |
| C126 | Border of a 2-D histogram | filtered index list |
| C127 | Taking data in ranges across x | induction over the ranges |
| C128 | Clipping and value limits (violated) | clip composed with binning |
| C129 | No PDF of means (violated) | case analysis |
| C130 | Logarithmic axes forget the sign | log10 and power identities |
| C131 | Data outside the adaptive mesh (violated) | from C79; remove_categories(inplace=) does not exist in pandas >= 2 |
| C132 | Edges given by the caller are changed (violated) | in-place result returned as second component |
| C133 | Cell filter | bounds of the interpolated quantile |
| C134 | Joint legend | list recursion |
| C135 | Sampling selected patches | sampler as an arbitrary sound oracle |
| C136 | Species in labels | regex alternation as first matching prefix; induction over the list |
| C137 | Label descriptions (violated) | object state |
| C138 | Text constituents (violated) | case analysis |
| C139 | Absolute value labels | case analysis |
| C140 | Save paths of different labels (violated) | string replacement model |
| C141 | Comparison labels | string replacement shortens |
| C142 | Frequency units (violated) | string model |
| C143 | Label normalisation and distance units | string model |
| C144 | Latest version after a release candidate (violated) | git's order abstracted to one that puts proper prefixes first |
| C145 | Waiting for the index: missed publications (violated) | loop model with arbitrary schedule |
| C146 | Conda environment file | list model |
| C147 | Recipe update | line model, idempotence |
| C148 | Feedstock update | world as a record of answers |
| C149 | Pull request references | scanner model of re.subn, strong induction on the text |
| C150 | Dependency comparison | list and dict model |
| C151 | Release readiness | scanner model of the pattern |
| C152 | Initial guesses are exact on noise-free data | median specification by counting; list induction |
| C153 | Initial amplitude of log-normal fits (violated) | log bound |
| C154 | Setting plot labels | state machine, induction over the history |
| C155 | Automatic save path follows the plot (violated for scales and normalisation) | state machine |
| C156 | Count labels name the normalisation in force | heap of label objects, invariant |
| C157 | Automatic save paths are distinct | injectivity of joining |
| C158 | Orbit legs | sorting and interval order |
| C159 | Normalisation by orbit leg (violated for densities and limits) | maxima and sums over both legs |
| C160 | Colour bars and orbit plots (violated) | state of the caller's dictionary |
| C161 | Scatter plot data | list model of index alignment |
| C162 | Data above a contour (violated) | induction over the columns |
| C163 | Limited colour scale (violated) | quantile model |
| C164 | Label units match the values (violated for heat flux and entropy) | SI value of every label unit as specification; API theorems of heat flux and entropy |
| C165 | Species tables agree | tables over symbolic constants |
| C166 | Save path of a fit plot (violated for the y scale) | setter history by induction, injectivity of joining |
| C167 | Marker spacing of fit plots | bounds of the logarithm |
| C168 | Residual curves (violated) | case analysis; text lemmas about strip |
| C169 | Uncertainty window of fit plots | lists of reals |
| C170 | Covariance of the fit parameters | matrices over the reals, SVD as hypothesis |
| C171 | What a fit object offers when (violated) | invariant over histories |
| C172 | Circular dependency search (violated: not all are reported) | invariant of the recursive search; accessibility of finished modules |
| C173 | Import resolution of the analysis scripts (violated) | lists of name parts; Python's rule as specification |
| C174 | Values are printed to the precision of their uncertainty (violated for small values) | exact model of %e (round half even); reading the printed text back as specification |
| C175 | Power-of-ten notation keeps the numbers (violated for formulas) | lemmas on two-character replacement and splitting |
| C176 | Simplified numbers keep their value (violated) | model of float repr; reading the text back |
| C177 | Naming parameters in the annotation (violated) | state machine over an arbitrary table renderer |
| C178 | Log-normal conversion gives the moments (violated for base ten) | moment generating function of the Gaussian measure |
| C179 | Initial guess of the composite fits (violated: depends on the origin) | weighted sums over lists of points |
| C180 | Initial guess of the saturation fit (violated: depends on the unit) | least squares as a specification of the slope oracle, shown satisfiable |
| C181 | Initial guess of exponential, power-law and Moyal fits (violated) | lists of points; bounds of exp |
| C182 | Binning argument of histograms (violated) | argument cases and per-axis edges |
| C183 | Projection of a 2-D histogram (violated) | lists of rows; counting |
| C184 | Geometry and contour levels of drawn histograms (violated) | real edges and rpow; limits in the unit |
| C185 | Normalising a whole sunspot series | grouping, sorting and alignment of lists |
| C186 | The sunspot object over its life (violated) | state machine; induction over calls |
| C187 | LISIRD missing markers and the sunspot curve on a colour bar (violated) | IEEE model, floor arithmetic |
| C188 | Saving figures (violated) | file system as a map; induction over saves |
| C189 | History of an interactive selection (violated) | state machine over drags; induction |
| C190 | Values of adaptive mesh cells (violated) | on top of the mesh model; grouping by cell |
| C191 | Drawing adaptive mesh plots (violated) | real arithmetic, monotone powers |
| C192 | The problem handed to the optimiser (violated) | SciPy's checks as a decision list; the optimiser is an arbitrary function |
| C193 | What a fit minimises (violated) | closed form of the Huber loss, real arithmetic |
| C194 | The trend function and what is shown of it (violated) | on top of the selection of observations (C40) |
| C195 | Turbulence built from a plasma | composition of the plasma and turbulence models |
| C196 | An ion's properties against the plasma's (violated) | IEEE model, row by row |
| C197 | Label texts are balanced LaTeX | scanner invariant through every replacement of the clean-up |
| C198 | Exact text of a label (violated for missing parts) | the clean-up commutes with filling in texts that do not interfere with it; the rest is a finite table checked by the kernel |
| C199 | Which labels are equal (violated) | unique parsing of balanced texts |
| C200 | Labels of abundances and dates (violated) | titled text cannot contain the separator: unique parsing |
| C201 | Sunspot, correlation, manual and count labels (violated) | replacement lemmas |
| C202 | Attribute access and copying of a plasma (violated) | attribute lookup as a fuelled recursion; no amount of fuel suffices |
| C203 | Histories of setters on a plasma (violated) | invariant of a state machine over setter calls |
| C204 | Smoothing of activity indices (violated) | rolling mean over dated samples |
| C205 | Dates of solar extrema (violated) | the whole calculation from raw series to table, equivariance under affine maps |
| C206 | Shipped reference abundances (violated in single cases) | tables transcribed by tools/abundance_table.py; uniqueness of symbols and numbers makes every lookup a single row |
| C207 | Shipped solar cycles and bands about their extrema | the table is regular, so the tiling theorem applies; bands are disjoint iff extrema are apart |
| C208 | Species without tabulated constants (violated) | the methods modelled again with failing look-ups, compared with those with total constants |
| C209 | What a fit reports about its initial guess (violated) | one call of make_fit composed of guess, optimiser, statistics and report |
| C210 | Data products of solar activity (violated) | tables by name, calendar arithmetic, composition with the cache model |
| C211 | Cycle, edge and extremum of every sunspot datum (violated at the minima) | interval chain of C65, independent specification of the cycle |
| C212 | The annotation of a fit, in full (violated for documented reports) | full model of build_info; lemmas on text replacement; exact decimals |
| C213 | Math mode of every line of the annotation (violated) | automaton counting dollars per line, invariant under the replacements |
| C214 | The printed formula is the fitted curve (violated by two classes) | a LaTeX reader (lexer, parser, evaluation) as specification, applied to the printed texts |
| C215 | Labels built from labels, after a change (violated) | heap of label objects with stored texts; refinement to a recursive meaning, by induction on the order of creation |
| C216 | Independence of the reference frame (violated with project_m2q or missing velocities) | metamorphic: the physics model on the transformed row; affine maps commute with the centre of mass |
| C217 | Independence of the axes | metamorphic: orthogonal maps preserve scalar products; same induction as C216 |
| C218 | Rescaling of the densities | metamorphic: a positive factor commutes with NaN-skipping sums, products and quotients |
| C219 | Rescaling of thermal speeds and field; reversal of the field | metamorphic, as C218 |
| C220 | What the reproducibility record says about the code that ran | model of git's three answers and of the directory walk, one world per command; case analysis |
| C221 | Turbulence under a change of axes, field sign, units, density and clock | metamorphic: the rolling mean is linear on rows that are whole; negation and positive factors commute with every step |
| C222 | Turbulence from inputs with different time stamps (violated) | partial functions on time stamps; bijection between rows and stamps carries windows over |
| C223 | One plasma at different growth rates (violated) | cross-multiplied power inequalities; concavity of powers reduces intervals to their ends, which are exact rational checks |
| C224 | Names and colours of the stability bins (violated with matplotlib >= 3.9) | matplotlib's normalisation and colour index as real arithmetic |
| C225 | Fits in other units (violated for some guesses) | metamorphic: a positive factor commutes with medians, masks, differences and weighted sums |
| C226 | Fits from another zero of the abscissa (violated for some guesses) | metamorphic: a shift commutes with medians, extremes and masks and cancels in differences |
| C227 | Fits and the order of the samples (violated for lines and hinges) | sums, extremes and sorted medians as functions of the multiset; masks as filters of rows |
| C228 | Histograms of labelled measurements (violated for repeated labels) | label lookup as search; looking the labels up again multiplies rows exactly when a label repeats (induction over the rows) |
| C229 | 1-D histograms of an orbit (violated for densities) | counting by cell and leg, induction over the rows |
| C230 | The beta-anisotropy plot | rows by label (C228), counting by cell, the count limit 5 |
| C231 | Which frames are vectors and tensors, and their magnitudes (violated) | column lists; three distinct names need three columns, pandas requires two |
| C232 | Projecting vectors measured at different times (violated) | alignment as lookup by time; sums that skip missing terms |
| C233 | How a plasma is divided into species (violated for the temperature) | relation between two rows; every total is a sum carried by mass or charge |
| C234 | Electrons of a divided plasma (violated for the thermal speed) | relation between two rows; C25 on both |
| C235 | The table of all activity indices (violated) | series as lists of timed values; outer join with multiplicities; missing as option |
| C236 | The listing of the available labels (violated) | text of the listing and a reader for it; tables transcribed |
| C237 | Histograms and the order of the data | filters and extremes as functions of the multiset |
| C238 | Histograms of joined data sets (violated for the default aggregation) | groups of a concatenation; sums |
| C239 | Coarser bins | half-open intervals are a disjoint union (induction) |
| C240 | Marginals and units of histograms | double counting; order isomorphism of the cuts |
| C241 | Listing the issues of a repository (violated when issues are removed meanwhile) | pages as slices of the list at the time of the request; first page that ends behind a given title |
| C242 | Creating issues from plans, again and again (violated for equal titles) | state machine on the tracker; invariant on the number of issues with a title, induction over sessions |
| C243 | Titles of issues (violated for names with a hyphen) | text functions; last piece of a split, trimming |
| C244 | Reading a plan and finding its repository (violated) | first occurrence of a marker; YAML as a parameter |
| C245 | Which frames are spacecraft, and what they keep (violated) | frames as labelled columns; counting labels |
| C246 | Histories of setters on a spacecraft | state machine; invariant by induction over the calls |
| C247 | The conda recipe, written, updated and read back (python always differs) | recipes as lists of lines; first match of the reader's pattern |
| C248 | Reading the dependencies of pyproject.toml (violated for extras) | first occurrence; quoted pieces by induction |
| C249 | Provenance of a release (violated) | answers of commands as inputs; the word survives stripping and splitting |
| C250 | Verdict of the documentation checks (violated) | folds over the files; sums |
| C251 | Adding :no-index: to the API pages (violated for partly marked pages) | substitution as a scan; induction over the blocks |
| C252 | Turbulence with rounding (violated for the energy budget) | rounding as a monotone odd idempotent function, nearest-even as an instance; induction over summation trees |
| C253 | Vectors with rounding (violated for cos_theta) | the root of a rounded square is the number; induction over summation trees |
| C254 | Densities and flows with rounding (violated for the order) | induction over summation trees |
| C255 | Normalisations and fit qualities with rounding | monotone rounding that keeps 0 and 1 |
| C256 | Adaptive mesh with rounded midpoints | a cell that holds two numbers a < b loses at least b - a of its width with every halving (nearest rounding), or starts at a |
| C257 | Accuracy of plasma quantities with rounding | errors in logarithms: products add, roots halve, sums take the larger; one rounding is one; invariant of the compensated sum |
| C258 | Centre of mass and drifts with rounding (violated for equal velocities) | invariant of the compensated sum: error and compensation are small parts of the sum of sizes |
| C259 | Densities of histograms with rounding | errors in logarithms per bin; sums of nonnegative terms keep the relative error |
| C260 | Shapes of the fit functions with rounding (violated for HingeAtPoint) | monotone rounding carries the order through each operation; the violation by exact evaluation |
| C261 | Drawn borders of a 2-D histogram (violated for smoothing options) | the borders are maps over the columns with data; the caller's dictionary is state threaded through the two calls |
| C262 | Options of drawn 1-D histograms (violated) | dictionaries as lists; matplotlib's alias resolution; the calls made are computed by cases |
| C263 | Options of the drawn 1-D parameters (violated) | as C262 |
| C264 | Options of the plotted observations of a fit (violated) | as C262; a predicate says that options are the caller's completed by defaults |
| C265 | The combined plot of data and fit (violated) | composition of the three plots of C264 |
| C266 | Levels, labels and colours of contour plots (violated) | lists of levels; matplotlib's own levels are arbitrary; membership characterised for increasing levels |
| C267 | Text of contour labels (violated) | a separate reader of decimal numbers; the stripped text is read back |
| C268 | Data behind the contours of the adaptive mesh | membership in the list of points by cell number; linspace computed |
| C269 | Joint plots of a 2-D histogram and its marginals (violated) | composition of the 1-D plots of C262; dictionaries as threaded state |
| C270 | Plots of a trend with its residuals (violated) | composition of the plots of C263 to C265 |
| C271 | Shapes of the remaining fit functions with rounding | as C260 |
| C272 | Distance to the Sun with rounding | component errors carried to the length; C253 |
| C273 | A 2-D histogram with contours on top (violated) | events computed by cases; the caller's dictionaries are threaded state |
| C274 | Options of contour plots without effect (violated) | cases |
| C275 | Docstring coverage: what is counted (violated) | the tree flattened to a sequence of class boundaries and functions; mutual induction over trees, then from the end of the sequence |
| C276 | Docstring coverage: the figures of the report (violated) | counts of C275; rational arithmetic |
| C277 | Docstring baseline (violated) | counters by mutual induction over trees; substring search as infix |
| C278 | Docstring validation (violated) | as C275; the section pattern as a decomposition of the text |
| C279 | Anisotropic Alfven speed with rounding | a rounding is a factor; errors counted as in C257 |
| C280 | Heat flux with rounding (violated for species that move together) | oddness of every operation; C258 |
| C281 | Statistics of an adaptive mesh | double counting of data and cells; C79, C80 |
| C282 | Stability bins with rounding | monotone rounding carries the order through the formula; a rounding is a factor; errors counted as in C257 |
| C283 | Coulomb logarithm with rounding | commutativity of rounded sums and products; errors counted as in C257 |
| C284 | Collision rate of slow drifts with rounding (violated) | numbers of the format above x are multiples of its last place; bounds of the exponential under the integral |
| C285 | Estimated electrons with rounding (violated for protons alone) | charges take the place of masses in the centre of mass of C258; errors counted as in C257 |
| C286 | Projections with rounding (violated for parallel vectors) | errors of unit vector, products and signed sums as multiples of the length; triangle inequality for the rest |
| C287 | Ratio of distribution functions with rounding | oddness and monotonicity of rounding through C286; errors counted as in C257 |
| C288 | Dynamic import tests do not disturb each other | interpreter as parameter; induction over the tests, invariant: same modules of the package loaded |
| C289 | Verdict of the dynamic import tests (violated) | from C288; a package with one order-dependent import as counterexample |
| C290 | Settings of the conda automation (violated) | case analysis; names without a slash end at the first slash |
| C291 | Reports of the documentation tests (violated) | case analysis; induction over the files |
| C292 | Accuracy of the ratio of distribution functions | errors of scaled velocities, drift, projections (C286) and squares, one after the other |
| C293 | Count of documentation examples (violated) | greedy search from the left is optimal, by induction over the text; folds over the files as sums |
<!-- /TABLE -->
