from props_a import P
F="solarwindpy/fitfunctions/"; S="solarwindpy/solar_activity/"; G="solarwindpy/plotting/"
FC=F+"core.py"
P("C40","Fit observations are selected exactly",
 "An observation takes part in a fit iff x, y and (if given) weight are finite, each lies in its closed [min,max] limits, and it is not strictly inside an excluded open interval ('outside' limits); used arrays are the raw arrays restricted to that mask, in order, and x, y, w stay aligned.",
 "all data arrays and limit settings","unbounded arrays with NaN/inf",[FC+":FitFunction._build_one_obs_mask",FC+":FitFunction._build_outside_mask",FC+":FitFunction._set_argnames",FC+":FitFunction.set_fit_obs"],"float lists; membership iff and sublist")
P("C41","Invalid fit input is rejected",
 "Construction fails with InvalidParameterError/AssertionError iff array shapes differ or weight limits are given without weights; in particular the documented 2-D covariance weights are always rejected.",
 "all shapes","all shapes",[FC+":FitFunction._clean_raw_obs"],"shape model")
P("C42","Insufficient data detection",
 "make_fit raises InsufficientDataError iff the number of used observations is smaller than the number of fit parameters; with return_exception=True the same exception object is returned, not raised.",
 "all data and function arities","all sizes",[FC+":FitFunction.sufficient_data",FC+":FitFunction.make_fit"],"outcome model")
P("C43","A failed fit leaves earlier results untouched",
 "Over every sequence of make_fit calls, the stored popt/psigma/pcov/chisq are those of the last successful call; a failing call (insufficient data, optimiser failure, non-finite result) changes none of them.",
 "all histories of fits with any optimiser outcomes","history property",[FC+":FitFunction.make_fit"],"state machine with optimiser as an oracle; induction on histories")
P("C44","Residuals and R^2",
 "residuals(pct=False) are observed minus fitted; percent residuals are 100*(obs-fit)/fit and NaN where fit = 0; the plot class reports the opposite sign; R^2 = 1 iff every residual is zero (non-constant data) and R^2 <= 1 always.",
 "all data","real-valued unbounded arrays",[FC+":FitFunction.residuals",FC+":FitFunction.rsq",F+"plots.py:FFPlot.residuals"],"real lists")
P("C45","Chi-square per degree of freedom",
 "dof = nobs - nparams >= 0 after a successful fit, chisq_dof = chisq/dof for dof>0 and inf when dof = 0; chisq >= 0 and is zero iff the curve passes through every used point.",
 "all data","all sizes",[FC+":FitFunction.dof",FC+":FitFunction._calc_popt_pcov_psigma_chisq"],"real lists")
P("C46","Trend fits partition the functions into good and bad",
 "After make_1dfits on the sequential path every 1-D fit function is in exactly one of ffuncs / bad_fits, bad ones exactly those whose make_fit returned an exception, order preserved.",
 "all sets of fit outcomes","all outcome combinations",[F+"trend_fits.py:TrendFit.make_1dfits"],"list filter model")
P("C47","Parallel and sequential 1-D fits agree (violated)",
 "make_1dfits(n_jobs=2) should give the same fits as n_jobs=1. The parallel path rebuilds each function without its x/y limits and weights, so it fits a different data set whenever a limit actually excludes a point.",
 "all data and limits","schedule/config independence",[F+"trend_fits.py:TrendFit.make_1dfits"],"model both paths over the mask model of C40; counterexample plus equality when nothing is excluded")
P("C48","n_jobs with at most one column crashes (violated)",
 "make_1dfits should succeed for every n_jobs; with n_jobs != 1 and at most one function it raises UnboundLocalError.",
 "all n_jobs != 1","control flow for every call",[F+"trend_fits.py:TrendFit.make_1dfits"],"control-flow model")
P("C49","Gaussian fits hide their failures from trend fits (violated)",
 "TrendFit should list failed 1-D fits in bad_fits. Gaussian.make_fit discards the returned exception, so for Gaussian 1-D functions bad_fits stays empty whatever fails.",
 "all outcomes","all histories",[F+"gaussians.py:Gaussian.make_fit",F+"trend_fits.py:TrendFit.make_1dfits"],"compose outcome models")
P("C50","Line intercepts",
 "For Line(m,b), m != 0: the function vanishes at x_intercept and equals y_intercept at 0; LineXintercept(m,x0) is the same line with b = -m x0; conversions are mutually inverse.",
 "all m != 0, b, x","real-valued",[F+"lines.py:Line",F+"lines.py:LineXintercept"],"field_simp")
P("C51","Initial guess of a line fit has the wrong sign (violated)",
 "For noise-free data on y = m x + b the initial guess should be (m,b); the code returns (m,-b) for every line and every set of >= 2 distinct abscissae, so it is wrong whenever b != 0 (and LineXintercept gets -x0).",
 "all lines, all abscissae","all data sets",[F+"lines.py:Line.p0",F+"lines.py:LineXintercept.p0"],"median of a constant list")
P("C52","Hinge functions are continuous and pass through their hinge",
 "HingeMin/HingeMax pass through (xh, h-value), equal the first line on one side and the second on the other; HingeSaturation equals its documented piecewise form iff m2 <= m1; HingeAtPoint passes through (xh,yh) with slopes m1, m2.",
 "all parameters and x","real-valued",[F+"hinge.py"],"min/max lemmas")
P("C53","TwoLine and Saturation agree",
 "TwoLine(x) = min of the two lines, they meet at (xs,s); Saturation with the reparametrised angle/slope gives the same function; TwoLine is bounded above by each line.",
 "all parameters","real-valued",[F+"hinge.py:TwoLine",F+"hinge.py:Saturation"],"tan/arctan identities")
P("C54","Step functions",
 "HeavySide(x) equals y1+y0 for x>x0 ... (per docstring) and y0 for x<x0; at x0 the value is y1*(y0+y1)/2 + y0, not the midpoint, unless parameters are special.",
 "all x, parameters","real-valued",[F+"heaviside.py:HeavySide",F+"composite.py"],"case analysis")
P("C55","Gaussian family",
 "Gaussian is symmetric about mu, bounded by A with equality iff x = mu; GaussianNormalized integrates to n; GaussianLn parameters round-trip through normal_parameters.",
 "all parameters","integral over the real line",[F+"gaussians.py"],"Mathlib Gaussian integral")
P("C56","Exponential and power-law families",
 "ExponentialCDF is 0 at 0, increasing and bounded by y0 for positive parameters; ExponentialPlusC / PowerLawPlusC differ from the plain form by the constant; PowerLaw is log-log linear with slope b.",
 "all parameters","real-valued",[F+"exponentials.py",F+"power_laws.py"],"Real.exp/rpow lemmas")
P("C57","Math-mode escaping of fit labels",
 "_check_and_add_math_escapes returns a string with an even number of dollar signs delimited by '$', leaves already delimited text unchanged, and rejects odd counts with ValueError.",
 "all strings","unbounded strings",[F+"tex_info.py:TeXinfo._check_and_add_math_escapes"],"char lists")
P("C58","Fit report is consistent with the fit",
 "set_popt_psigma accepts iff both dictionaries have the same keys; unknown keyword arguments to build_info raise ValueError.",
 "all dictionaries","unbounded",[F+"tex_info.py:TeXinfo.set_popt_psigma",F+"tex_info.py:TeXinfo.build_info"],"finite-map model")
# ---- tools
P("C59","Proton population swapping",
 "swap_protons exchanges p1 and p2 exactly on the rows where n2 > n1 and leaves every other row and column untouched; afterwards n1 >= n2 on every row where both are measured; swapping again changes nothing.",
 "all frames","unbounded rows, NaN",["solarwindpy/tools/__init__.py:swap_protons"],"row model with NaN comparisons")
P("C60","Instability thresholds and bins",
 "Each (anisotropy, beta) pair receives exactly one stability bin; the bin is 'stable' iff no threshold is exceeded, MM/OFI take precedence over AIC/FMW.",
 "all beta, anisotropy incl. NaN thresholds","real-valued",["solarwindpy/instabilities/verscharen2016.py:StabilityCondition"],"reals with NaN for beta below the pole")
# ---- solar activity
P("C61","Cached data freshness",
 "Over every history of days, loads and downloads the loader serves data whose file date is today after maybe_update_stale_data, downloads at most once per day, and the cache then holds exactly one file.",
 "all histories of calls and dates","history property",[S+"base.py:DataLoader.maybe_update_stale_data",S+"lisird/lisird.py:LISIRDLoader.download_data"],"state machine over directory listings")
P("C62","A crash between write and delete wedges the loader (violated)",
 "After a crash at any point of download_data the next start should recover. If the crash falls between writing the new file and removing the old one, two dated files remain and every later load fails with AssertionError.",
 "all crash points","crash points",[S+"base.py:DataLoader.get_data_ctime",S+"lisird/lisird.py:LISIRDLoader.download_data",S+"sunspot_number/sidc.py:SIDCLoader.download_data"],"small-step model of the download, crash after any prefix")
P("C63","Data age accessor (violated)",
 "age should return the data age; it reads a different attribute than the one set and raises AttributeError in every state.",
 "all states","all states",[S+"base.py:DataLoader.age",S+"base.py:DataLoader.get_data_age"],"attribute-map model")
P("C64","Interpolation never extrapolates",
 "interpolate_data gives NaN outside the closed range of indicator times, the exact indicator value at a sample time, and between neighbours a value between theirs.",
 "all series, all targets","unbounded series",[S+"base.py:ActivityIndicator.interpolate_data"],"piecewise-linear model over sorted lists")
P("C65","Cycle intervals tile time",
 "Rise, Fall and Cycle intervals built from alternating extrema satisfy Rise u Fall = Cycle for each cycle, are contiguous and disjoint: each time after the first minimum and before the end belongs to exactly one Cycle and exactly one of Rise/Fall.",
 "all extrema tables","unbounded tables",[S+"base.py:IndicatorExtrema.calculate_intervals",S+"base.py:IndicatorExtrema.cut_spec_by_interval"],"sorted lists; pd.cut model")
P("C66","Sunspot bands",
 "cut_spec_by_ssn_band assigns each value in the covered range to exactly one band of width 2d, bands are contiguous and right-closed; a value may fall above the last band although it does not exceed the maximum.",
 "all values, d, maxima","real-valued",[S+"sunspot_number/sidc.py:SSNExtrema.cut_spec_by_ssn_band"],"arange model")
P("C67","Activity normalisation",
 "Normalising by max gives values <= 1 attaining 1; feature scaling maps onto [0,1] attaining both ends; z-score has mean 0 and unit variance.",
 "all non-degenerate series","unbounded series",[S+"sunspot_number/sidc.py:SIDC.run_normalization"],"real lists")
P("C68","Extrema validation keeps separated extrema",
 "After validation consecutive kept extrema of a kind ... the first is always kept.",
 "all candidate lists","unbounded lists",[S+"lisird/extrema_calculator.py:ExtremaCalculator._validate_extrema"],"list model")
P("C69","ICME containment",
 "contains(t) is True iff some catalogue event with a measured end satisfies start <= t <= end, whatever the order or overlap of events.",
 "all catalogues and times","unbounded lists; correctness of the sorted search",[S+"icme/icmecat.py:ICMECAT.contains"],"argsort+searchsorted model vs existential spec")
P("C70","ICME interval end",
 "interval_end is the measured end if present, else magnetic-obstacle start + 24 h, else event start + 24 h; it is missing iff all three are; events from get_events_in_range are exactly those with start <= end_query and interval_end >= start_query.",
 "all catalogues","unbounded",[S+"icme/icmecat.py:ICMECAT._prepare_intervals",S+"icme/icmecat.py:ICMECAT.get_events_in_range"],"option model")
P("C71","ICME spacecraft filter",
 "filter(name) keeps exactly the events whose spacecraft equals the matched catalogue name, is case-insensitive, idempotent, and does not modify the original catalogue.",
 "all catalogues and names","unbounded",[S+"icme/icmecat.py:ICMECAT.filter",S+"icme/icmecat.py:ICMECAT._filter_by_spacecraft"],"list + lower-case model")
P("C72","ICME cache staleness",
 "The catalogue is downloaded iff there is no cache directory, no cache file, or the file is older than 30 days; with a cache directory the file is fresh afterwards.",
 "all histories","histories",[S+"icme/icmecat.py:ICMECAT._load_data"],"state machine")
# ---- plotting
P("C73","Histogram binning",
 "Every finite datum strictly above the first edge and not above the last falls in exactly one bin; the smallest datum, which defines the first edge, falls in none (its bin is left-open), so automatic binning always loses it.",
 "all data, all edges","unbounded data",[G+"agg_plot.py:AggPlot.calc_bins_intervals",G+"agg_plot.py:AggPlot.make_cut"],"sorted edges, right-closed intervals")
P("C74","Histogram counts are conserved",
 "The bin counts sum to the number of data within the binned range; clim masks exactly bins whose count is outside the closed limits.",
 "all data","unbounded",[G+"agg_plot.py:AggPlot._agg_runner",G+"hist1d.py:Hist1D.agg"],"list model")
P("C75","Density normalisation integrates to one on linear axes",
 "For axnorm='d' and a linear axis the sum of value*width is 1 for any non-empty histogram; for logarithmic axes it is not (the width is replaced by 10^width).",
 "all histograms","unbounded",[G+"hist1d.py:Hist1D._axis_normalizer",G+"hist2d.py:Hist2D._axis_normalizer"],"real lists")
P("C76","Row/column/total normalisation of 2-D histograms",
 "'c' makes every column's maximum 1 and keeps ratios inside a column, 'r' the same for rows, 't' overall; 'cd' ('rd') makes each column (row) integrate to 1.",
 "all positive grids","unbounded grids",[G+"hist2d.py:Hist2D._axis_normalizer"],"finite maps")
P("C77","Plotted-data selection in 2-D (violated)",
 "get_plotted_data_boolean_series should mark exactly the data lying in displayed bins; it checks the axes independently and also marks data in hidden bins whose row and column both contain a displayed bin; 1-D is exact.",
 "all data and limits","unbounded",[G+"agg_plot.py:AggPlot.get_plotted_data_boolean_series"],"superset theorem, 1-D exactness, 2-D counterexample")
P("C78","Empirical CDF",
 "construct_cdf positions are non-decreasing from 0 to 1 with values sorted, containing each selected datum once.",
 "all data","unbounded",[G+"hist1d.py:Hist1D.construct_cdf"],"sorted list")
P("C79","Adaptive mesh cells partition the plane region",
 "After every number of refinement steps the mesh cells are pairwise disjoint and cover exactly the initial region, so each in-range point belongs to exactly one cell and its bin number is that cell, independent of the parallel loop order.",
 "all meshes, data, steps, thread schedules","unbounded refinement and schedules",[G+"spiral.py:SpiralMesh.process_one_spiral_step",G+"spiral.py:SpiralMesh.generate_mesh",G+"spiral.py:calculate_bin_number_with_numba"],"invariant by induction on steps")
P("C80","Adaptive mesh respects the population limit",
 "If generate_mesh terminates every cell holds at most min_per_bin data; it does not terminate if more than min_per_bin data coincide.",
 "all data","unbounded steps",[G+"spiral.py:SpiralMesh.generate_mesh"],"fuel-indexed iteration; invariant and non-termination")
P("C81","Edge extension keeps the maximum inside",
 "calc_initial_bins moves the last edge strictly above the largest datum, whatever its sign, so the largest datum is binned.",
 "all data","real-valued",[G+"spiral.py:SpiralPlot2D.calc_initial_bins"],"max lemma")
P("C82","Grid layout helper",
 "calculate_nrows_ncols(n) terminates for every n >= 1 and returns a grid with n or n+1 places; n+1 only for n > 4 without a proper divisor.",
 "all n >= 1","all naturals",[G+"tools.py:calculate_nrows_ncols"],"Nat.sqrt + descending search")
P("C83","Shared-colourbar layout",
 "build_ax_array_with_common_colorbar places nrows*ncols panels on distinct full-size grid cells, none overlapping the colourbar or the spacer, for each location.",
 "all nrows, ncols, locations","all sizes",[G+"tools.py:build_ax_array_with_common_colorbar"],"index arithmetic")
P("C84","NaN-aware smoothing",
 "nan_gaussian_filter keeps NaN cells NaN, is finite elsewhere, reproduces constants, stays within the range of the valid data, and equals the plain filter when nothing is NaN and the kernel has unit mass.",
 "all arrays, all non-negative kernels","unbounded arrays",[G+"tools.py:nan_gaussian_filter"],"non-negative kernel model with finite sums")
P("C85","Label ordering (violated in part)",
 "Labels compare equal iff their text is equal and equal labels hash equally; > is the strict text order; but a <= a is False, because <= is implemented as <.",
 "all labels","all strings",[G+"labels/base.py:Base"],"string order")
P("C86","Ratio labels",
 "A ratio of two labels with equal units is dimensionless, otherwise its units are u0/u1.",
 "all measurement pairs","tables x strings",[G+"labels/base.py:TeXlabel.build_label"],"finite map")
P("C87","Ion labels",
 "Ion accepts a charge iff it parses as an integer or is 'i'/'j'; ...",
 "all strings","unbounded",[G+"labels/composition.py:Ion"],"string model")
P("C88","Version bump always moves forward",
 "Whenever the release script creates a tag the new version is strictly greater than the current one in semantic-version order, and the produced string parses back to the intended components; every accepted bump kind other than switching to an earlier pre-release stage is accepted.",
 "all versions and bump kinds","all naturals",["scripts/bump_version.py:bump_version","scripts/bump_version.py:validate_version_progression"],"version order model")
P("C89","PyPI wait loop is bounded",
 "wait_for_pypi stops for every behaviour of the index, never sleeps beyond the deadline, and returns True only if a check succeeded.",
 "all schedules of availability","schedules",["scripts/wait_for_pypi.py:wait_for_pypi"],"clock/oracle loop")
P("C90","Requirement translation",
 "A requirement 'name op version' translates to the conda name with the same constraint, or without it for '==' pins; an environment marker containing '>=' breaks the translation.",
 "all requirement strings","unbounded strings",["scripts/requirements_to_conda_env.py:translate_package_name"],"char lists")
