from props_a import P, PROPS, B, PL, V, T, I, SC, U, AB, AT
def fix(i, **kw):
    for p in PROPS:
        if p["id"] == i:
            p.update(kw); return
    raise KeyError(i)

fix("C03", statement="Plasma construction stores the given species sorted with nothing added or lost, rejects an empty list with ValueError and any '+' with an assertion. A single comma-separated string 'a,p1' is NOT the same as passing the pieces: the pieces are computed and thrown away, so construction fails.")
fix("C25", statement="estimate_electrons returns n_e = sum q_i n_i and v_e with n_e v_e = sum q_i n_i v_i (zero net charge and current) on every row with n_e != 0, NaN velocity on rows with n_e = 0, and an electron thermal speed corresponding to T_e = T_p n_p / n_e per component (so T_e differs from T_p as soon as other ions carry charge); it raises NotImplementedError iff 'e' is present and ValueError iff not exactly one of 'p','p1' is.")
fix("C26", statement="heat_flux is zero when all species co-move, odd under reversal of all velocities, the '+' form is the sum of the per-species form, and a single species raises ValueError.")

P("C91","A plasma saved without attachments cannot be loaded by default (violated)",
 "Plasma.load_from_file with its default keys should load every file Plasma.save wrote. If the saved plasma had no spacecraft (or no auxiliary data) the default load raises KeyError.",
 "all plasmas without spacecraft or auxiliary data","needs every plasma state, not one fixture",
 [PL+":Plasma.save",PL+":Plasma.load_from_file"],"HDF store model; error for every such plasma")
P("C92","Saving leaves stale attachments in the file (violated)",
 "After save the file should describe the saved plasma. The file is opened in append mode, so the auxiliary data of an earlier save survive a later save of a plasma that has none, and loading attaches them.",
 "all pairs of successive saves","a history property over the file's contents",
 [PL+":Plasma.save"],"HDF store model; two consecutive saves")
P("C93","Tensor.set_data ignores its argument (violated)",
 "Tensor.set_data(new) should store the new data; for every tensor and every input it leaves the stored data unchanged.",
 "all tensors, all data","holds for all inputs",[T+":Tensor.set_data"],"object-state model")
P("C94","Missing thermal data become zero in single-string queries (violated)",
 "thermal_speed, pth, temperature and beta of one species on a row whose thermal data are missing should be NaN; the single-string path sums with NaN skipping and returns 0, and anisotropy is +inf where only the parallel component is missing.",
 "all plasmas and rows","needs every missing-data pattern",[PL+":Plasma.thermal_speed",PL+":Plasma.pth",PL+":Plasma.anisotropy"],"IEEE model with NaN skipping sums")
P("C95","Coulomb logarithm of opposite charges is NaN (violated)",
 "lnlambda(a,b) should be a number for every pair of species with measured data; for charges of opposite sign (electron-ion) the argument of the logarithm is negative and the result is NaN at every row.",
 "all rows and species pairs of opposite charge","needs every row",[PL+":Plasma.lnlambda"],"IEEE model; sign argument")
fix("C39", statement="The stored fluctuation at a row is the measurement minus the mean of the measured values in the trailing window ending there (NaN if the measurement is NaN or fewer than min_periods are measured): the window's deviations from that mean sum to zero, a constant series gives zero, adding a constant to the input changes nothing, and data outside the window (in particular later data) have no influence.")
P("C96","Missing spacecraft positions (violated)",
 "A missing spacecraft position should give a missing distance to the Sun; distance2sun skips NaN, so a row with no measured component is reported at distance 0 in both frames, and partly missing positions as the norm of the rest.",
 "all frames and positions","every missing-data pattern",[SC+":Spacecraft.distance2sun"],"row model with NaN-skipping sum")
P("C97","Turbulence energies with missing fluctuations (violated)",
 "Where a fluctuation component is missing the Elsasser identities should hold or the energies be NaN. Energies skip NaN per component, so e+ + e- misses the other field's energy in that component, and rows without any measured fluctuation (e.g. before min_periods) report energy 0.",
 "all rows","every missing-data pattern",[AT+":AlfvenicTurbulence.e_plus",AT+":AlfvenicTurbulence.total_energy"],"row model with NaN-skipping sums")
P("C98","Rectified turbulence version",
 "raffaella_version needs a spacecraft vector (ValueError otherwise); the polarity is the sign -1, 0 or 1 (NaN only if opposite infinities meet); where it is +-1 total and residual energy are those of the unrectified fluctuations and the cross helicity is multiplied by the polarity.",
 "all inputs and rows","quantifies over all series",[AT+":AlfvenicTurbulence.set_data",AT+":AlfvenicTurbulence.bfield"],"set_data model with polarity")
FC="solarwindpy/fitfunctions/core.py"
fix("C41", statement="Construction of a fit function fails with InvalidParameterError/AssertionError/ValueError iff array shapes differ, weight limits are given without weights, or an 'outside' pair is not in increasing order; in particular the documented 2-D covariance weights are always rejected.")
P("C99","Half-updated fit after a covariance failure (violated)",
 "make_fit(return_exception=True) should return every fit failure and leave the earlier results untouched. A failure while computing the covariance (after the optimiser succeeded) is raised regardless of return_exception and leaves the new fit_bounds beside the old parameters.",
 "all histories","a crash-point property of the fit",[FC+":FitFunction.make_fit"],"state machine with arbitrary optimiser outcomes")
P("C100","LaTeX parameters of a log-normal fit (violated)",
 "GaussianLn.TeX_popt should return the LaTeX-formatted parameters as TeXinfo does for every fit; it delegates to a parent property that does not exist, so it raises AttributeError whatever the state of the fit.",
 "all fit states","every state, including before and after fitting",["solarwindpy/fitfunctions/gaussians.py:GaussianLn.TeX_popt"],"property-resolution model along the class hierarchy")
HG="solarwindpy/fitfunctions/hinge.py"; GA="solarwindpy/fitfunctions/gaussians.py"; HS="solarwindpy/fitfunctions/heaviside.py"
fix("C54", statement="HeavySide is y0+y1 below x0 and y0 above; exactly at x0 it is y1*(y0+y1)/2 + y0, the midpoint only if y1 = 0 or y0+y1 = 1. GaussianPlusHeavySide adds the step (midpoint at x0), GaussianTimesHeavySide is 0 below x0 and the Gaussian from x0 on, GaussianTimesHeavySidePlusHeavySide is y1 below, the Gaussian above, and their sum at x0.")
fix("C53", statement="TwoLine is the lower of its two lines, which meet exactly at (xs,s) when the slopes differ; Saturation at a TwoLine's x1, xs, s, theta is the same curve with the same derived slopes and intercept (plateau not flat); the angle of HingeMin/HingeMax equals that of TwoLine for all slopes.")
fix("C52", statement="HingeMin, HingeMax, HingeSaturation and HingeAtPoint are continuous broken lines through their hinge; the documented left/right order of the two slopes holds iff m2 <= m1 (minimum forms) resp. m1 <= m2 (maximum form); slopes of magnitude <= 1e-15 in HingeSaturation count as 0.")
fix("C55", statement="Gaussian is symmetric about mu, positive, at most A with equality only at mu, decreasing away from mu; GaussianNormalized integrates to n (to -n for negative sigma); GaussianLn is the Gaussian of ln x with height A at e^m; normal_parameters determine (m, s^2).")
fix("C100", title="LaTeX parameters of log-normal and CDF fits (violated)", statement="GaussianLn.TeX_popt and ExponentialCDF.set_TeX_info should work after every fit; both delegate to a parent attribute that does not exist, so they raise AttributeError whatever the state of the fit.")
P("C101","Moyal curve and reported formulas (violated)",
 "Moyal should be an asymmetric peak and every class should report the formula it fits. The Moyal curve is symmetric about mu for all parameters, its reported LaTeX formula differs from the curve at the peak for every A != 0, and that of GaussianLn lacks a minus sign (differs at every x != e^m).",
 "all parameters","claims over all parameters",["solarwindpy/fitfunctions/moyal.py:Moyal",GA+":GaussianLn.TeX_function"],"closed-form model of curve and formula")
P("C102","Initial guesses with one-sided data (violated)",
 "The initial guess of every hinge-type function should be usable for all data. With fewer than two points on one side of the guessed transition TwoLine and Saturation guess NaN, HingeAtPoint guesses a curve that is NaN everywhere and HingeMin one that is -inf below the hinge.",
 "all data sets with < 2 points on one side","quantifies over all data",[HG+":TwoLine.p0",HG+":Saturation.p0",HG+":HingeAtPoint.p0",HG+":HingeMin.p0"],"p0 model on lists of observations")
P("C103","User guesses are used (violated)",
 "Guesses given to the constructor should influence the initial guess. guess_s of Saturation and guess_yh of HingeAtPoint never do, and guess_y0/guess_y1 of HeavySide only if both are given.",
 "all data and guesses","independence over all inputs",[HG+":Saturation.p0",HG+":HingeAtPoint.p0",HS+":HeavySide.p0"],"p0 model")
P("C104","Flat plateaus (violated)",
 "A hinge with a flat segment (slope exactly 0) is a legitimate curve; HingeAtPoint with a zero slope and Saturation with theta = arctan(m1) are NaN at every x.",
 "all x and other parameters","every x",[HG+":HingeAtPoint.function",HG+":Saturation.function"],"IEEE model 0*inf")
P("C105","Initial guess of Gaussian fits",
 "For non-negative data with positive sum the initial guess of Gaussian and GaussianNormalized is finite: mean within the range of x, width at most that range, height the largest datum, and the normalised guess has that height at its centre.",
 "all data sets","inequality over all data",[GA+":Gaussian.p0",GA+":GaussianNormalized.p0"],"weighted-moment model; induction on the data")
TXI="solarwindpy/fitfunctions/tex_info.py"
fix("C57", statement="Text without dollar signs is delimited by $, text with an even positive number is unchanged, an odd number raises ValueError; the parameter lines of an annotation are always balanced; a list of extra lines is accepted iff each has an even number of dollars. An extra string, however, is neither checked nor delimited, so an odd one unbalances the annotation.")
fix("C58", statement="Parameters are accepted iff every name in popt has an uncertainty (ValueError otherwise); an unknown keyword raises ValueError and keeps the stored text; after any history of builds str(TeX_info) is the text of the last successful build.")
P("C106","Extra annotation lines are the caller's (violated)",
 "A list passed as additional_info should be left alone and any iterable accepted. Building the annotation overwrites the caller's list with the delimited lines, and any non-empty tuple is rejected.",
 "all lists and tuples","aliasing effect over all lists",[TXI+":TeXinfo._check_and_add_math_escapes",TXI+":TeXinfo._add_additional_info"],"model returns the caller's list after the call")
P("C107","Translation of parameter names to LaTeX",
 "With distinct, fresh LaTeX names every parameter keeps its value under its translated name and none is lost; but a LaTeX name equal to another parameter's name silently drops that parameter.",
 "all parameter dictionaries and translations","induction over the list of renamings",[TXI+":TeXinfo.set_TeX_argnames"],"dictionary model; induction")
TL="solarwindpy/tools/__init__.py"; VI="solarwindpy/instabilities/verscharen2016.py"
fix("C59", statement="swap_protons exchanges all measurements of p1 and p2 exactly on the rows where n2/n1 > 1 (for positive n1: n2 > n1; never if a density is missing; reversed for negative n1) and leaves every other row and column untouched; afterwards n1 >= n2 wherever both are measured and non-negative. A second call changes no value but adds a second column with the label of the swap record.")
fix("C60", statement="For non-negative or missing beta each (anisotropy, beta) row receives exactly one stability bin and no error: 4 iff the MM threshold is exceeded, 3 iff AIC but not MM, 0 iff OFI, 1 iff FMW but not OFI, 2 iff none; bins >= 3 need anisotropy > 1, bins <= 1 anisotropy < 1. Above its pole each threshold moves strictly towards 1 with beta. Unknown growth rates raise KeyError. (Evaluated with pandas < 2; see C108.)")
P("C108","Stability analysis runs (violated)",
 "StabilityCondition and the contour plot should work with the supported pandas versions (>= 2.0); both use iteritems, removed in 2.0, so every construction and every plot raises.",
 "all data, growth rates, kinds","every input fails",[VI+":StabilityCondition._calc_is_unstable",VI+":StabilityContours.plot_contours","pyproject.toml"],"pandas version as a parameter of the model")
P("C109","Missing measurements and legend of the stability plot (violated)",
 "A row with missing beta or anisotropy should not be classified and legend rows should match their lines. Missing rows get the bin 'Stable', and the legend rows labelled AIC, FMW, MM hold the MM, AIC, FMW lines.",
 "all rows; all lines","every missing-data pattern",[VI+":StabilityCondition._calc_stability_bin",VI+":StabilityContours._add_table_legend"],"row model; legend filled column by column")
S="solarwindpy/solar_activity/"; EX=S+"lisird/extrema_calculator.py"; SD=S+"sunspot_number/sidc.py"
fix("C61", statement="For every history of program runs (each: construct the loader, load once) on non-decreasing days with any pattern of server failures: a cache holding one complete file stays in that state; a run serves today's complete data if the server answers (or the file is already today's), otherwise reports the error and leaves the cache untouched; each day sees at most one successful download, and none before the date of the cached file.")
fix("C62", statement="After a crash at any point of a download the next run should recover. If the crash falls between the appearance of the new file and removal of the old one, two dated files remain and every later run ends in AssertionError forever; a crash in the very first download leaves a truncated file that is served as today's data (SIDC) or a data file without metadata (LISIRD: FileNotFoundError for the rest of the day).")
P("C110","A loader object can be reused (violated)",
 "Loading repeatedly through one loader should behave like separate runs. The creation date is read once at construction: a second load on the same day downloads again, and loads on two successive days leave two dated files, after which every new run ends in AssertionError.",
 "all dates and sources","history property",[S+"base.py:DataLoader.__init__",S+"base.py:DataLoader.maybe_update_stale_data"],"state machine with a loader object")
P("C111","The cache works in any directory and at any clock time (violated)",
 "If the directory path contains an eight-digit group, every run after the first successful one fails with AssertionError (unless the date coincides); a file dated in the future is neither replaced nor used (FileNotFoundError), and a load straddling midnight fails.",
 "all paths, dates, histories","history and path property",[S+"base.py:DataLoader.get_data_ctime",S+"base.py:DataLoader.load_data"],"dates found in the path as a parameter")
fix("C64", statement="For ascending target times interpolate_data returns one value per target: missing exactly outside the closed range of the sample times, the sample itself at a sample time. It refuses exactly samples that are not in order of time (ValueError), three or fewer samples and no targets (IndexError). Violated for other orders: only the first and last targets are compared, so any extrapolated value in between is returned; and between samples the cubic interpolant can exceed both neighbours (proved for four equidistant samples).")
fix("C65", statement="For every well-formed table of extrema (consecutive numbers; minimum < maximum < next minimum; last cycle possibly in progress) the intervals exist; each time after the first minimum up to the end of the last cycle lies in exactly one cycle and exactly one of its two edges, any other time in none; cutting by Cycle or Edges assigns exactly that interval.")
fix("C66", statement="The N = ceil(max/2d) sunspot bands of half width d are adjacent and right-closed: each value in (-d,(2N-1)d] gets exactly the one band containing it, every other value none. Whenever the maximum is a multiple of 2d the upper half band below the maximum is uncovered. nssn with d >= 1 raises ValueError, a call before interpolation AttributeError.")
fix("C67", statement="Per cycle, for measured or missing values: division by the (positive) maximum gives values <= 1 attaining 1; feature scaling maps affinely onto [0,1] attaining both ends; the z-score has mean 0 and unit sample variance; missing stays missing and positions are kept. Cycles with constant values give no number under feature scaling and z-score, nor under max if the constant is 0.")
fix("C68", statement="Of ascending candidates the first is kept, kept ones are more than the minimum separation apart, and a later candidate is kept iff it is that far after the candidate just before it. Violated: evenly spaced candidates with step <= separation are all dropped except the first, though later ones are far from it; a fixed number of candidates is removed by name, so F10.7 with a single maximum raises IndexError.")
P("C112","Default cut by interval (violated)",
 "cut_spec_by_interval with the default kind=None ('all available options') should assign intervals; a cycle overlaps its own edges, so it raises ValueError for every non-empty well-formed table and every epoch.",
 "all tables and epochs","every input fails",[S+"base.py:IndicatorExtrema.cut_spec_by_interval"],"pd.cut model with the overlap check")
P("C113","Edge labels agree with the intervals",
 "For a cycle with recorded maximum, the edge label of each datum is Rise/Fall exactly if the datum lies in the Rise/Fall interval. Violated for the cycle in progress: no datum gets a label although the intervals call it rising until today.",
 "all tables, dates, data","agreement of two computations",[SD+":SIDC.calculate_edge",S+"base.py:IndicatorExtrema.calculate_intervals"],"row-wise equivalence")
P("C114","Extremum labels",
 "With recorded maximum each measured datum gets exactly one label: >= half the cycle's largest value: maximum of its cycle; below: minimum of its own cycle up to the maximum date, of the next after it. Violated: documented as split at the cycle mean; without recorded maximum low data get none.",
 "all cycles and values","real-valued",[SD+":SIDC.calculate_extrema_kind"],"sequence of masked assignments")
P("C115","Default threshold (violated)",
 "The documented default threshold np.nanmedian never works: for every index name outside the built-in table construction raises TypeError whatever the data; numbers and Python functions work.",
 "all names and data","every input fails",[EX+":ExtremaCalculator.set_threshold",EX+":ExtremaCalculator.find_threshold_crossings"],"callable kinds as an inductive type")
P("C116","One extremum per excursion",
 "If every excursion above/below the threshold lasts at least three samples the search returns exactly one extremum per excursion, alternating and of its kind. Violated: an excursion of exactly two samples anywhere raises AssertionError, one of a single sample yields a spurious extremum of the opposite kind.",
 "all series without missing values","unbounded series; group boundaries",[EX+":ExtremaCalculator.find_threshold_crossings",EX+":ExtremaCalculator.cut_data_into_extrema_finding_intervals",EX+":ExtremaCalculator._find_extrema"],"group model; induction over excursions")
P("C117","Extrema tables of series starting with a maximum (violated)",
 "Extrema found in a series are formatted as a table and used for intervals. If the first extremum is a maximum, the first row has no minimum and the interval computation raises ValueError for every such series; otherwise row i holds the i-th minimum and maximum.",
 "all extrema lists","unbounded lists",[EX+":ExtremaCalculator.format_extrema",S+"base.py:IndicatorExtrema.calculate_intervals"],"composition of the two models")
P("C118","Standard error of missing sunspot deviations (violated)",
 "A missing standard deviation (-1) should give a missing standard error. It does only for exactly one observation; otherwise the result is -inf (none) or -1/sqrt(n). Present deviations give s/sqrt(n).",
 "all counts and deviations","real-valued",[SD+":SIDCLoader.download_data",SD+":SIDCLoader.convert_nans"],"IEEE model; order of the two steps")
P("C119","Bands about extrema",
 "One half-width gives symmetric, two asymmetric right-closed bands, one per extremum in order; any other number raises ValueError. Violated for close extrema: two extrema closer than the widths make every cut fail.",
 "all widths and extrema","unbounded lists",[S+"base.py:IndicatorExtrema.calculate_extrema_bands",S+"base.py:IndicatorExtrema.cut_about_extrema_bands"],"interval model")
P("C120","Duplicate and unordered download times",
 "After verify_monotonic_epoch each time occurs exactly once with the first value downloaded for it, nothing else is lost and the order is kept. Violated: order is not checked; distinct times in any order pass.",
 "all downloads","unbounded lists",[S+"lisird/lisird.py:LISIRDLoader.verify_monotonic_epoch"],"list recursion with the times seen")
IC=S+"icme/icmecat.py"
fix("C69", statement="For every catalogue (any order, overlaps, ties, missing times) and every list of times, contains answers in place whether some event with a measured end has start <= t <= end; a missing time is never contained; the result does not depend on how argsort orders ties.")
fix("C71", statement="In a consistently spelled catalogue filter(name) keeps, in order, exactly the events whose spacecraft equals name up to case; repeating it (in any case) changes nothing, filtering by two different craft leaves nothing. Violated otherwise: if a craft occurs in two spellings only the last new one is kept; one event without craft name makes every filter raise AttributeError.")
fix("C72", statement="The server is asked iff there is no cache directory, no cache file, or the file is more than 30 days old; over every history of runs each run fails for the network or serves an answer the server gave at most 30 days earlier; a failed download leaves the cache alone.")
P("C121","Containment and range queries agree",
 "contains(t) implies that get_events_in_range(t,t) is not empty, and holds iff that query returns an event with a measured end. Violated converse: an event without measured end is returned by the range query for its 24 h fallback interval but never contains a time.",
 "all catalogues and times","agreement of two queries",[IC+":ICMECAT.contains",IC+":ICMECAT.get_events_in_range"],"from C69 and C70")
P("C122","Crash while caching the catalogue (violated)",
 "After a crash the next run should recover. The cache file is written in place: after a crash during the write every run of the next 30 days fails to read it, whatever the server, and never repairs it.",
 "all crash times and histories","crash points",[IC+":ICMECAT._download",IC+":ICMECAT._try_load_cache"],"induction over the history")
P("C123","Catalogue summary",
 "n_events and n_strict count all events and those with measured end; the date range starts at the earliest start and ends at the latest interval end, both attained by events.",
 "all catalogues","unbounded",[IC+":ICMECAT.summary"],"min/max of lists with missing values")
G="solarwindpy/plotting/"
fix("C73", statement="With ascending edges every number strictly above the first and not above the last edge is assigned to exactly one bin, the right-closed one containing it; other numbers, NaN and infinities to none. Violated for automatic bins: the smallest datum is in no bin unless rounding moves the first edge below it (never, if it is a multiple of the rounding step), and the largest is lost whenever rounding moves the last edge below it.")
fix("C74", statement="The bin counts (1-D, and cell counts in 2-D) add up to the number of rows with present values inside the binned range, each bin counting exactly its own rows; clim hides exactly bins whose count is outside the closed limits and leaves the others unchanged.")
fix("C77", statement="get_plotted_data_boolean_series should mark exactly the data in displayed bins. In 1-D it does; in 2-D a datum in cell (i,j) is marked iff column i and row j each show some cell, so data in hidden cells are marked too (reachable). get_subset_above_threshold behaves the same.")
fix("C78", statement="construct_cdf returns each selected measurement exactly once in ascending order at positions k/(n-1), from 0 to 1 in equal steps; a single measurement gets a missing position; more than two different aggregated values raise ValueError.")
P("C124","Fine bins below the rounding precision (violated)",
 "Automatic binning should work for any data. The edges are rounded to `bin_precision` decimals: if (range*10^p + 1) is below half the number of bins, construction raises ValueError; in the default configuration for every data set spanning less than 4.9e-4.",
 "all data, precisions, bin numbers","real-valued; pigeonhole over bins",[G+"agg_plot.py:AggPlot.calc_bins_intervals",G+"agg_plot.py:AggPlot.make_cut"],"rounding to nearest; induction over the edges")
P("C125","Normalisation keys (violated in 1-D)",
 "Hist1D.set_axnorm should accept the documented 't' and 'd'. It accepts None and exactly the strings beginning with d/D, and raises AssertionError for 't'; Hist2D.set_axnorm accepts exactly c,r,t,d,cd,rd in any case.",
 "all strings","all strings",[G+"hist1d.py:Hist1D.set_axnorm",G+"hist2d.py:Hist2D.set_axnorm"],"string model")
P("C126","Border of a 2-D histogram",
 "get_border gives for every column with a displayed cell the last displayed cell (top) and the first (bottom), with their values, and nothing for the other columns.",
 "all grids","unbounded",[G+"hist2d.py:Hist2D.get_border"],"filtered index list")
P("C127","Taking data in ranges across x",
 "take_data_in_yrange_across_x returns the labels in ascending order, each once per half-open box containing its datum; with distinct labels and boxes sharing no datum each at most once and exactly for the data inside a box. Empty or reversed boxes raise AssertionError.",
 "all data and ranges","unbounded",[G+"hist1d.py:Hist1D.take_data_in_yrange_across_x",G+"hist2d.py:Hist2D.take_data_in_yrange_across_x"],"induction over the ranges")
P("C128","Clipping and value limits (violated)",
 "clip_data is documented to remove extreme values. Every non-missing datum (even infinite) is kept: those beyond the quantiles are counted in the quantile's bin; one-sided clipping ('l', 'u') raises AttributeError in Hist1D and clips both sides in Hist2D. alim hides exactly values outside the closed limits.",
 "all data, edges, quantiles","real-valued",[G+"agg_plot.py:AggPlot.clip_data",G+"agg_plot.py:AggPlot.make_cut",G+"hist2d.py:Hist2D.agg"],"clip composed with binning")
P("C129","No PDF of means (violated)",
 "A density histogram with non-count aggregation should be refused. It is only for an explicit function; with the default and two different y values the density-normalised bin means are returned.",
 "all data","all data",[G+"hist1d.py:Hist1D.agg",G+"agg_plot.py:AggPlot._agg_runner"],"case analysis")
P("C130","Logarithmic axes forget the sign",
 "On a logarithmic axis the subset handed back by get_subset_above_threshold is the absolute value of the input for every value incl. 0, NaN and infinities: the input is returned exactly for non-negative data (violated for negative).",
 "all values","real-valued",[G+"agg_plot.py:AggPlot.get_subset_above_threshold",G+"hist1d.py:Hist1D.set_data",G+"hist2d.py:Hist2D.set_data"],"log10 and power identities")
SP=G+"spiral.py"
fix("C80", statement="If generate_mesh terminates every cell holds at most min_per_bin data and the cells still partition the region. It terminates iff at no point of the initial region more than min_per_bin data coincide.")
fix("C81", statement="The last edge is moved strictly above every edge whatever the signs, the others are kept. With an integer number of bins every finite datum lies in the region, hence in exactly one cell of the finished mesh.")
P("C131","Data outside the adaptive mesh (violated)",
 "A datum outside every cell should simply be left out. Instead one such datum (every missing or infinite value, e.g. log10(0)) makes initialize_mesh raise TypeError and the density cell filter ValueError; if all data are inside both work and bin numbers are valid cell indices.",
 "all meshes, data, thread schedules","unbounded data and loop orders",[SP+":SpiralMesh.build_cat",SP+":SpiralMesh.cell_filter"],"from C79; remove_categories(inplace=) does not exist in pandas >= 2")
P("C132","Edges given by the caller are changed (violated)",
 "Edges passed as an array should be left alone. The caller's array gets its last edge replaced in place, so a second plot from the same array has a different, again 1 % larger, last edge.",
 "all edge arrays with positive maximum","aliasing, all arrays",[SP+":SpiralPlot2D.calc_initial_bins"],"in-place result returned as second component")
P("C133","Cell size filter",
 "Without thresholds every cell is kept. A size quantile (even 1) always removes the largest cells, all cells if the areas are equal; every kept cell is smaller than every removed one.",
 "all meshes and quantiles","real-valued",[SP+":SpiralMesh.cell_filter"],"bounds of the interpolated quantile")
fix("C82", statement="calculate_nrows_ncols(n) returns for every n >= 1 the most balanced grid with exactly n places, or n+1 places exactly if n is a prime above 4; at least as many rows as columns from four rows on, else at most as many. n = 0 fails.")
fix("C83", statement="For every grid shape and location build_ax_array_with_common_colorbar makes one panel per (row, column), in order, each on its own full-size grid cell; the colour bar spans its whole side on the side asked for, with one empty spacer line between bar and panels. Other locations raise ValueError.")
fix("C84", statement="nan_gaussian_filter keeps missing cells missing; a valid cell whose kernel sees only numbers in [lo,hi] becomes a number in [lo,hi] (so constants are reproduced) whatever is missing; the value depends only on the cells the kernel reaches; without missing cells and with unit kernel mass it is the plain filter. Violated: integer arrays always raise TypeError.")
TL=G+"tools.py"; SE=G+"select_data_from_figure.py"; LB=G+"labels/base.py"; LS=G+"labels/special.py"
P("C134","Joint legend",
 "joint_legend shows every label of every axis exactly once, in ascending order, each with the handle of its first occurrence.",
 "all axes and labels","unbounded",[TL+":joint_legend"],"list recursion")
P("C135","Sampling selected patches",
 "sample_data returns ascending labels of data inside the patches (left and lower border excluded), n per patch with enough data, at least one otherwise, and lists exactly the empty patches as failed; disjoint patches give no label twice; labels selected elsewhere are excluded if all of them occur in the data. Violated: one foreign label disables the exclusion completely.",
 "all data, patches, random generators","arbitrary random choices",[SE+":SelectFromPlot2D.sample_data"],"sampler as an arbitrary sound oracle")
fix("C85", statement="Labels are equal iff their texts are, equal labels hash equally, < and > are the strict text order and trichotomous. Violated: <= and >= are strict too, so a <= a is False for every label.")
fix("C86", statement="A label has its measurement's units (degrees for angular components, ??? if unknown, the same for its error); a ratio is dimensionless iff the units agree, otherwise u0/u1; normalised labels are dimensionless. Violated: ratios of two unknown quantities, and of an angular to another component, are labelled dimensionless.")
fix("C87", statement="Ion accepts a textual charge iff int() reads it or it is 'i' or 'j' (else ValueError), every integer charge; the species is case-insensitive; the path writes p/m for signs. Violated: with an integer charge, the documented form, path raises AttributeError, also in every ratio.")
P("C136","Species in labels",
 "In any list of documented species codes joined by a character that is in no code, every code is replaced by its own LaTeX form, never by that of a shorter code, and separators stay. Violated for undocumented species: 'Ca' becomes carbon followed by alpha.",
 "all lists of species","unbounded strings; order of regex alternatives",[LB+":_run_species_substitution",LB+":TeXlabel.make_species"],"regex alternation as first matching prefix; induction over the list")
P("C137","Label descriptions (violated)",
 "A description is shown above the label. Set after construction it is ignored by TeXlabel, while for all other labels it changes the text and so the hash, losing dictionary keys.",
 "all labels and descriptions","all strings, mutation",[LB+":Base.set_description",LB+":TeXlabel.build_label"],"object state")
P("C138","Text constituents (violated)",
 "Probability, CountOther, MathFcn and AbsoluteValue accept a str constituent by their type check; for every str construction raises AttributeError. Comparison labels do accept text.",
 "all strings","all strings",[LS+":Probability",LS+":MathFcn",LS+":AbsoluteValue",LS+":ComparisonLable"],"case analysis")
P("C139","Absolute value labels",
 "AbsoluteValue keeps the units of its label. Violated for labels without units (manual labels, dates, Carrington rotation): the object is built but its text raises AttributeError.",
 "all labels","all labels",[LS+":AbsoluteValue"],"case analysis")
P("C140","Save paths of different labels (violated)",
 "Different labels should be saved under different paths. Paths ignore commas, so species pairs and run-together names collide for every quantity; Probability with \\lt and \\gt collide for every threshold.",
 "all labels and thresholds","all strings",[LB+":TeXlabel._build_one_label",LS+":Probability._build_path"],"string replacement model")
P("C141","Comparison labels",
 "A comparison is refused iff both constituents have units and they differ, otherwise it has the common units; the clean-up loop ends and leaves no doubled thin space; undocumented operation names raise TypeError. Violated: a dimensionless quantity cannot be compared with a dimensionless ratio; a product keeps the units of one factor.",
 "all labels","loop termination for all strings",[LS+":ComparisonLable",LS+":Xcorr._build_tex"],"string replacement shortens")
P("C142","Frequency units (violated)",
 "Units of a frequency should read (...)^{-1}; for every interval they read (...)^-1.",
 "all intervals","all strings",[G+"labels/datetime.py:Frequency.units"],"string model")
P("C143","Label normalisation and distance units",
 "TeXlabel accepts axnorm None and c,r,t,d in any case, else AssertionError (also for the histogram's cd, rd); Distance2Sun accepts exactly rs, re, au, m, km in any case, else NotImplementedError.",
 "all strings","all strings",[LB+":TeXlabel.set_axnorm",LS+":Distance2Sun.set_units"],"string model")
fix("C88", statement="For every readable version and each of the six bump words the string produced reads back as the intended version; it is accepted, and a tag created, only if it is strictly later in semantic-version order, which fails exactly when an earlier pre-release stage is asked for; at most one tag is added, never in a dry run or on a dirty working directory; a free, later tag is created.")
fix("C89", statement="wait_for_pypi with a positive interval stops after a number of requests bounded by the time allowed and the interval alone, for every behaviour of index and clock; each sleep is non-negative and planned to end by the deadline; it returns True iff a request made found exactly the version (status 200); exit code 0 only for a final version that was found.")
fix("C90", statement="A requirement 'name op version' with any spacing translates to the conda name with the same constraint, without it for '==' pins and tzdata; a bare name to the conda name. Violated: with a further constraint or an environment marker containing '>=' the pin stays and the name is not translated.")
B="scripts/"
P("C144","Latest version after a release candidate (violated)",
 "bump_version should continue from the latest release. Git sorts a release before its own pre-releases, so after v1.0.0 is released following v1.0.0-rc1 the base is the candidate, and 'patch' asks for the existing tag and fails.",
 "all tag sets, all orders that put a prefix first","all tag histories",[B+"bump_version.py:get_latest_version"],"git's order abstracted to one that puts proper prefixes first")
P("C145","Waiting for the index: missed publications (violated)",
 "No request is made after the last sleep: with an interval at least the time allowed the index is asked once; interval 0 never ends if requests fail at once; a negative interval raises ValueError; a version the index spells differently is never found.",
 "all schedules","all schedules of replies and delays",[B+"wait_for_pypi.py:wait_for_pypi",B+"wait_for_pypi.py:check_pypi_availability"],"loop model with arbitrary schedule")
P("C146","Conda environment file",
 "generate_environment refuses an existing file without overwrite; otherwise it writes one dependency per non-blank, non-comment line in order, a pinned line giving exactly its conda name. Violated: option and hash lines of the lock file are written as packages.",
 "all files","all line lists",[B+"requirements_to_conda_env.py:generate_environment"],"list model")
P("C147","Recipe update",
 "update_meta_yaml replaces exactly the version and sha256 lines, keeps all others and the number of lines; the last update wins and repeating it changes nothing. Violated: a recipe without recognised lines is left unchanged with success reported; every sha256 line gets the same hash.",
 "all files, versions, hashes","all texts",[B+"update_conda_feedstock.py:CondaFeedstockUpdater.update_meta_yaml"],"line model, idempotence")
P("C148","Feedstock update",
 "update_feedstock succeeds only for a final version confirmed by the index with exactly that text and hashed; it opens at most one issue, none in a dry run, quoting a commit only if verified. Violated: --no-issue, a failed issue and a hash mismatch with GitHub have no effect; the issue never contains the dependency comparison.",
 "all answers of the outside world","all combinations of external answers",[B+"update_conda_feedstock.py:CondaFeedstockUpdater.update_feedstock",B+"update_conda_feedstock.py:CondaFeedstockUpdater.create_tracking_issue"],"world as a record of answers")
P("C149","Pull request references",
 "After 'closed' no reference to the request is unmarked and a second run changes nothing and says so; after 'opened' no placeholder remains; nothing is written when there is nothing to replace. Violated: closing n also breaks references to numbers starting with the digits of n.",
 "all file contents and numbers","all texts",[B+"update_pr_references.py:replace_placeholder",B+"update_pr_references.py:mark_closed"],"scanner model of re.subn, strong induction on the text")
P("C150","Dependency comparison",
 "With each package named once per list there is one row per package, marked different, added or missing exactly when it is; names end at >=, < or ==. Violated: packages constrained with ~= are shown as added and missing instead of different.",
 "all dependency lists","all lists",[B+"compare_feedstock_deps.py:display_side_by_side"],"list and dict model")
P("C151","Release readiness",
 "The script exits 0 iff all nine checks hold, otherwise with the number of failed checks; the changelog passes iff nothing stands between the Unreleased heading and the next section. Violated: an Unreleased section that is last in the file passes with any content.",
 "all repository states and changelogs","all texts",[B+"check_release_ready.py:main",B+"check_release_ready.py:check_changelog"],"scanner model of the pattern")
F="solarwindpy/fitfunctions/"
P("C152","Initial guesses are exact on noise-free data",
 "With the true transition as guess and at least two points (consecutive abscissae different) on each side, noise-free two-line data with non-zero slopes give the exact parameters as initial guess of TwoLine, HingeMin, HingeMax and Saturation (angle for 1 + m1 m2 > 0), the exact slopes for HingeAtPoint (height: the datum nearest the hinge); HeavySide guesses medians of the data above and below the step, exact for a noise-free step. Data sets with fewer points than parameters, and only these, are refused.",
 "all data sets on two lines; all data for the step","all sizes and samples",[F+"hinge.py:TwoLine.p0",F+"hinge.py:Saturation.p0",F+"hinge.py:HingeMin.p0",F+"hinge.py:HingeAtPoint.p0",F+"heaviside.py:HeavySide.p0"],"median specification by counting; list induction")
P("C153","Initial amplitude of log-normal fits (violated)",
 "The initial amplitude of GaussianLn should be the height of the data. It is the logarithm of the largest datum, smaller than it for every positive data set, and for data not exceeding 1 the guessed curve is nowhere positive.",
 "all positive data sets","all data sets",[F+"gaussians.py:GaussianLn.p0"],"log bound")
fix("C133", title="Cell filter", statement="Without thresholds (or with zero ones) every cell is kept. A size quantile in (0,1] (even 1) always removes the largest cells, all cells if the areas are equal; every kept cell is smaller than every removed one. A density quantile always removes the cells of least density and keeps only cells denser than all removed ones; with both a cell must pass each. Thresholds outside [0,1] are ValueError.")
PL="solarwindpy/plotting/"
P("C154","Setting plot labels",
 "An accepted set_labels sets exactly the labels named and keeps the others; a rejected one raises (ValueError for a z label on a 1-D histogram, KeyError for an unknown axis) and changes nothing; after any history each label is the last one accepted.",
 "all plots and histories of calls","all histories",[PL+"base.py:Base.set_labels",PL+"hist1d.py:Hist1D.set_labels"],"state machine, induction over the history")
P("C155","Automatic save path follows the plot (violated for scales and normalisation)",
 "After set_labels or set_path('auto') the path is class/x/y[/z]/scales (plus the normalisation). Violated: set_log and set_axnorm never update it, so the path contradicts the plot until the labels are set again.",
 "all plots and histories","all histories",[PL+"base.py:Base.set_path",PL+"base.py:Base.set_log",PL+"hist1d.py:Hist1D.set_path"],"state machine")
P("C156","Count labels name the normalisation in force",
 "Every constructed histogram's count label names its normalisation and keeps doing so through any history, rejected calls included, unless the label object is shared (violated: normalising one plot renames the other). Violated: Hist1D(axnorm='density') without y raises AssertionError although only the first letter should count.",
 "all histograms and histories","all histories, aliasing",[PL+"hist1d.py:Hist1D.set_axnorm",PL+"hist2d.py:Hist2D.set_axnorm",PL+"labels/special.py:Count"],"heap of label objects, invariant")
P("C157","Automatic save paths are distinct",
 "For one class and plain text labels the automatic path determines labels and scales. Violated otherwise: blank and dash collide, so do a missing label and 'None'; all new scatter plots share one path. The path after construction is given for each class.",
 "all labels","all pairs of plots",[PL+"base.py:Base.set_path",PL+"scatter.py:Scatter"],"injectivity of joining")
P("C158","Orbit legs",
 "For an orbit of at least two intervals (l, r] without common times, in whatever order given, a measurement is Inbound exactly during the earliest, Outbound exactly during the second, and in no leg otherwise; a count cell holds the number of measurements of that leg in that bin. No IntervalIndex: TypeError; common times: ValueError; fewer than two intervals: IndexError.",
 "all orbits, times, data","all orbits and times",[PL+"orbits.py:OrbitPlot.set_orbit",PL+"orbits.py:OrbitPlot.make_cut",PL+"orbits.py:OrbitPlot.grouped"],"sorting and interval order")
P("C159","Normalisation by orbit leg (violated for densities and limits)",
 "Column, row and total normalisation of an orbit histogram equal those of each leg alone. Violated: the 'd' density divides by the cell area twice (correct only for equal cells), the conditional densities by the width twice; the value limits are applied before the last normalisation, so values above the limit are drawn.",
 "all grids and edges","all grids",[PL+"orbits.py:OrbitHist2D.agg",PL+"hist2d.py:Hist2D._axis_normalizer"],"maxima and sums over both legs")
P("C160","Colour bars and orbit plots (violated)",
 "Without cbar_kwargs every colour bar goes to its own plot's axes, with ax or cax to those, with both ValueError. Violated: a dictionary naming neither is changed, later plots using it put their colour bar on the first plot's axes; orbit plots with a colour bar (the default) always raise. The leg is named by the first letter in either case; the two halves of an in/out plot mirror each other.",
 "all sequences of plots, all texts","all sequences",[PL+"base.py:CbarMaker._make_cbar",PL+"scatter.py:Scatter.make_plot",PL+"orbits.py:OrbitHist2D.make_one_plot",PL+"orbits.py:OrbitHist2D.make_in_out_plot"],"state of the caller's dictionary")
P("C161","Scatter plot data",
 "A scatter plot has exactly one point per label at which x, y and z (if given) are measured, with those values; ValueError iff there is none. Points are coloured, with a colour bar if asked for, iff two differ in z. Violated: with clip_data=True it can never be drawn.",
 "all series","all series and alignments",[PL+"base.py:PlotWithZdata.set_data",PL+"scatter.py:Scatter.make_plot"],"list model of index alignment")
P("C162","Data above a contour (violated)",
 "id_data_above_contour labels a datum with its x bin exactly if its y lies between cells of that column reaching the level, both included: no datum in a cell reaching the level is missed, but data in lower cells between are labelled too; a column not reaching the level makes the call fail.",
 "all grids, levels, data","all grids",[PL+"hist2d.py:Hist2D.id_data_above_contour"],"induction over the columns")
P("C163","Limited colour scale (violated)",
 "limit_color_norm sets open limits to the 1% and 99% quantiles of the z data, keeps given ones, and does nothing for column and row normalisation. Violated: for count histograms both limits become 1, whatever is drawn; without or with total normalisation it raises AttributeError.",
 "all data and norms","all data",[PL+"hist2d.py:Hist2D._limit_color_norm",PL+"hist2d.py:Hist2D.make_plot"],"quantile model")
P("C164","Label units match the values (violated for heat flux and entropy)",
 "With the default units, label units of field, densities, speeds, pressures, temperature, beta, Coulomb logarithm, collision frequency and age are those the values are computed in; derived factors follow the ones given. Violated: a heat flux in the labelled mW/cm^2 is off by 10^8; a specific entropy in the labelled eV cm^2 m_p^(-5/3) is about 11% of the true value.",
 "all plasmas, all given unit factors","agreement of two modules for every value",["solarwindpy/core/units_constants.py:Units","solarwindpy/plotting/labels/base.py:_trans_units","solarwindpy/core/plasma.py:Plasma.heat_flux","solarwindpy/core/plasma.py:Plasma.specific_entropy"],"SI value of every label unit as specification; API theorems of heat flux and entropy")
P("C165","Species tables agree",
 "Charge numbers, charges, masses in kg, in proton masses and in atomic mass units know the same ten species and give each those of its particle; the polytropic indices are those of 1, 2 and 3 degrees of freedom.",
 "all species names","all names, for any values of the constants",["solarwindpy/core/units_constants.py:_m_in_mp","solarwindpy/core/units_constants.py:_charges","solarwindpy/core/units_constants.py:_masses"],"tables over symbolic constants")
FF="solarwindpy/fitfunctions/"
P("C166","Save path of a fit plot (violated for the y scale)",
 "The path is FFPlot / function name / x label / y label / z label if any / scales, always of the labels, name and scales last accepted: an unknown keyword is refused (KeyError for labels, TypeError for scales) and changes nothing. Plots that differ in name, text labels or x scale have different paths. Violated: the y scale is always written logY.",
 "all histories of setter calls","all histories, all label texts",[FF+"plots.py:FFPlot.path",FF+"plots.py:FFPlot.set_labels",FF+"plots.py:FFPlot.set_log"],"setter history by induction, injectivity of joining")
P("C167","Marker spacing of fit plots",
 "Below ten points every point is marked; from ten on the spacing is the power of ten that leaves between 10 and 100 marks, and it grows with the number of points.",
 "all numbers of points","unbounded sizes",[FF+"plots.py:FFPlot._estimate_markevery"],"bounds of the logarithm")
P("C168","Residual curves (violated)",
 "The kind, in any case, says which residuals are drawn: fitted minus observed, the optimiser's own (divided by the uncertainties; they agree iff the uncertainty is one or the residual zero), or both, in percent of the fitted value if asked for. Violated: an unknown kind silently draws nothing; with the default kind a colour, marker or line style raises TypeError; a label starting with a LaTeX command loses its backslash for single kinds; resid_pct is honoured only by the first plot made with the same dictionary.",
 "all data, kinds, labels, styles, numbers of plots","all inputs",[FF+"plots.py:FFPlot.plot_residuals",FF+"plots.py:FFPlot.residuals",FF+"plots.py:FFPlot.plot_raw_used_fit_resid"],"case analysis; text lemmas about strip")
P("C169","Uncertainty window of fit plots",
 "The band around the data is centred on each observation, twice the uncertainty wide, contains the observation iff the uncertainty is not negative, collapses onto the data without weights, and has gaps exactly where the observation or its uncertainty is missing.",
 "all data and weights","all arrays",[FF+"plots.py:FFPlot.plot_raw",FF+"plots.py:FFPlot.plot_used"],"lists of reals")
P("C170","Covariance of the fit parameters",
 "The reported covariance is symmetric and positive semidefinite, and the uncertainties are the real square roots of its diagonal; for a Jacobian of full rank it is the inverse of JtJ times the robust chi-square per degree of freedom, for exactly degenerate parameters the Moore-Penrose inverse; it does not change when all residuals are rescaled. With no more observations than parameters all uncertainties are infinite.",
 "all Jacobians of any size, all costs","all matrices",[FF+"core.py:FitFunction._calc_popt_pcov_psigma_chisq"],"matrices over the reals, SVD as hypothesis")
P("C171","What a fit object offers when (violated)",
 "Over every history of fits, new observations and rebuilds: before the first success parameters, annotation and plotter raise AttributeError and chisq_dof is None; afterwards parameters, annotation and plotter are those of the last success. Violated: the annotation meant for failed fits cannot be built; after set_fit_obs annotation and plotter keep showing the old data.",
 "all histories","all histories",[FF+"core.py:FitFunction.build_TeX_info",FF+"core.py:FitFunction.build_plotter",FF+"core.py:FitFunction.make_fit"],"invariant over histories")
SC="scripts/"
P("C172","Circular dependency search (violated: not all are reported)",
 "Every circular dependency reported is one (distinct modules, each importing the next, the last the first), begins with its smallest name, and is reported once even up to rotation; one is reported iff the import graph has one (of more than one module, for the fixed script), whatever order modules and sets are visited in. Violated: not every circular dependency is reported, and which are depends on set order.",
 "all finite import graphs, all visiting orders","all graphs, recursion of any depth",[SC+"analyze_imports_simple.py:SimpleDependencyAnalyzer.find_circular_dependencies_dfs",SC+"analyze_imports_fixed.py:DependencyAnalyzer.find_circular_dependencies_dfs"],"invariant of the recursive search; accessibility of finished modules")
P("C173","Import resolution of the analysis scripts (violated)",
 "An edge is recorded exactly for each import statement that names a module and resolves to a scanned module; relative imports of ordinary modules follow Python's rule. Violated: in a package's __init__ they resolve one package too high; 'from . import x' never counts; the simple script records no dependency and so reports no cycle for any package without a part named solarwindpy....",
 "all packages and import statements","all inputs",[SC+"analyze_imports_simple.py:SimpleDependencyAnalyzer._resolve_import",SC+"analyze_imports_fixed.py:DependencyAnalyzer._resolve_import"],"lists of name parts; Python's rule as specification")
P("C174","Values are printed to the precision of their uncertainty (violated for small values)",
 "A parameter not smaller in decades than its uncertainty is printed to the uncertainty's first digit: as many decimals as decades lie between, at most half a unit of that digit off; the uncertainty to one digit. Zero uncertainty counts as order one; infinite or missing uncertainty gives four digits; a missing value with a finite uncertainty raises ValueError. Violated: a value smaller than its uncertainty is printed with more decimals the smaller it is.",
 "all finite and non-finite values and uncertainties","all reals",[FF+"tex_info.py:TeXinfo.val_uncert_2_string",FF+"tex_info.py:TeXinfo._calc_precision"],"exact model of %e (round half even); reading the printed text back as specification")
P("C175","Power-of-ten notation keeps the numbers (violated for formulas)",
 "convert_pow_10 turns each printed number of a parameter line into the same mantissa times ten to the same exponent, one closing brace each, nan and inf kept; lines do not affect each other; plain text lines are kept. Violated: e-, e+, -0 and +0 are rewritten in the formula too.",
 "all names, values, uncertainties, formulas","all texts",[FF+"tex_info.py:TeXinfo._build_fit_parameter_info"],"lemmas on two-character replacement and splitting")
P("C176","Simplified numbers keep their value (violated)",
 "simplify_info_for_paper shows k = number, trailing zeros and point dropped, with the same value for 1e-4 <= |x| < 1e16; lines that are no numbers are kept. Violated: in exponent notation zeros of the exponent are dropped too, so exactly for exponents divisible by ten another number is shown (1e-10 as 1e-1).",
 "all decimals, all lines","all numbers",[FF+"tex_info.py:TeXinfo._simplify_for_paper"],"model of float repr; reading the text back")
P("C177","Naming parameters in the annotation (violated)",
 "set_TeX_argnames accepts names iff each is a fitted parameter and occurs in the text of the initial-guess table, else ValueError and the names stay. Violated: it cannot be repeated: once renamed, the original name is no longer in the table and the same call raises.",
 "all parameter names and histories of two calls","all names",[FF+"tex_info.py:TeXinfo.set_TeX_argnames",FF+"tex_info.py:TeXinfo.initial_guess_info"],"state machine over an arbitrary table renderer")
P("C178","Log-normal conversion gives the moments (violated for base ten)",
 "For data whose natural logarithm is normal with mean m and standard deviation s, normal_parameters(m, s) gives exactly the mean and the standard deviation of the data, the same numbers as the Gaussian-ln fit's own conversion. Violated: the documented claim that the formulas hold for base-ten logarithms too; there the mean is right only if m = -(ln 10 + 1) s^2 / 2.",
 "all real m and s","all reals; an integral against the normal law",["solarwindpy/tools/__init__.py:normal_parameters"],"moment generating function of the Gaussian measure")
P("C179","Initial guess of the composite fits (violated: depends on the origin)",
 "The guess of a Gaussian cut off at a position is centre, spread and height of the data beyond the position, with the centre beyond it; a plateau below is guessed by the mean of the data there, zero without any; no data beyond raises ValueError. The Gaussian-plus-step guess puts the step at three quarters of the data centre and uses the data beyond. Violated: it depends on the origin of the abscissa; any data moved far enough to the left have a guess with missing centre and width.",
 "all data with non-negative ordinates, all positions, all shifts","all data sets of any size",[FF+"composite.py:GaussianPlusHeavySide.p0",FF+"composite.py:GaussianTimesHeavySide.p0",FF+"composite.py:GaussianTimesHeavySidePlusHeavySide.p0"],"weighted sums over lists of points")
P("C180","Initial guess of the saturation fit (violated: depends on the unit)",
 "On noise-free saturation data with the true hinge as guess the guess is exact; with too few points on a side the intercept falls back to the smallest abscissa and the plateau slope to zero. Violated: the steepness threshold is absolute, so in a unit of the ordinate large enough the intercept guess is the smallest abscissa. The intercepts reported for a hinge at a point are the zeros of its lines.",
 "all noise-free data, all units; polyfit is any least-squares slope","all data sets and units",[FF+"hinge.py:HingeSaturation.p0",FF+"hinge.py:HingeAtPoint.x_intercepts"],"least squares as a specification of the slope oracle, shown satisfiable")
P("C181","Initial guess of exponential, power-law and Moyal fits (violated)",
 "The guess has the highest datum as height (exponential, Moyal) and centre and spread of the data (Moyal); power laws start from the identity; too few data are refused. Violated: the exponential guess is exact only for rate one and data from zero on; the cumulative rate guess grows with the ordinate unit and ignores the abscissa unit; the guessed Moyal curve reaches less than 90 % of the height it was given.",
 "all data","all data sets of any size",[FF+"exponentials.py:Exponential.p0",FF+"exponentials.py:ExponentialPlusC.p0",FF+"exponentials.py:ExponentialCDF.p0",FF+"power_laws.py:PowerLaw.p0",FF+"moyal.py:Moyal.p0"],"lists of points; bounds of exp")
PLT="solarwindpy/plotting/"
P("C182","Binning argument of histograms (violated)",
 "A positive number of bins gives every axis that many bins, a smaller one is refused; a sequence of edges bins every axis with these edges, and one entry per axis bins each axis with its own. Violated: a sequence as long as the number of axes is never edges: in two dimensions the two edges of a single bin are a TypeError if floats, a ValueError if the first integer is below one, and otherwise the numbers of bins of the axes.",
 "all binning arguments, axes and data","all arguments",[PLT+"agg_plot.py:AggPlot.calc_bins_intervals"],"argument cases and per-axis edges")
P("C183","Projection of a 2-D histogram (violated)",
 "Projected onto an axis, a count histogram without limits gives the sums of its columns (rows): the marginal counts, with the bins of that axis; other axis names are refused. Violated: with limits on counts or values a datum of a hidden cell is projected as soon as its column and row show anything, so the projection exceeds the sum of the displayed cells; and the projected dependent values are y as measured within the binned range for x, but log10 x, within the range or not, for y.",
 "all histograms of any size, limits, axes","sums over all data sets",[PLT+"hist2d.py:Hist2D.project_1d",PLT+"agg_plot.py:AggPlot.get_plotted_data_boolean_series"],"lists of rows; counting")
P("C184","Geometry and contour levels of drawn histograms (violated)",
 "A drawn rectangle (bin) holds exactly the data counted in it, lower edge excluded; on log axes in terms of the modulus, zero in none. Drawn centres lie strictly inside, at the midpoint or geometric mean; the drawn array has one line per y bin; missing cells are masked; curve points are (centre, value), exchanged when transposed. Default contour levels exist for every accepted normalisation and ascend. Violated: those of densities are absolute numbers, so that for some units of the axis all cells lie below the lowest and for others all populated cells above the highest.",
 "all edges, data, grids, units","all data and units",[PLT+"hist2d.py:Hist2D.make_plot",PLT+"hist2d.py:Hist2D._maybe_convert_to_log_scale",PLT+"hist2d.py:Hist2D._get_contour_levels",PLT+"hist1d.py:Hist1D.make_plot"],"real edges and rpow; limits in the unit")
SA_="solarwindpy/solar_activity/"
P("C185","Normalising a whole sunspot series",
 "For disjoint cycles and distinct times, the normalised column holds, for a row of a cycle, its value scaled with the values of exactly that cycle, whatever the order of the rows, and is missing for a row in no cycle; the values of one cycle do not depend on the data of others; divided by a positive maximum they are at most 1, and 1 exactly at the maximum.",
 "all series, cycles, scalings","all series of any length",[SA_+"sunspot_number/sidc.py:SIDC.run_normalization",SA_+"base.py:ActivityIndicator._run_normalization"],"grouping, sorting and alignment of lists")
P("C186","The sunspot object over its life (violated)",
 "An unknown normalisation is refused and changes nothing; after a normalisation the normalised series and its name stay, whatever is read or interpolated, until the next one; banding fails before normalising (KeyError), before interpolating (AttributeError) and when the interpolated frame lacks the series (TypeError), and otherwise gives each value its band. Violated: the first read of `normalized` lacks the rows outside the cycles, the second has them; after interpolating the normalised series run_normalization fails with KeyError although it has replaced the column; the interpolated normalised number is scaled with the interpolated values, so a lone target in a cycle is 1 whatever its sunspot number.",
 "all histories of calls","all call histories",[SA_+"sunspot_number/sidc.py:SIDC.normalized",SA_+"sunspot_number/sidc.py:SIDC.run_normalization",SA_+"sunspot_number/sidc.py:SIDC.interpolate_data",SA_+"sunspot_number/sidc.py:SIDC.cut_spec_by_ssn_band",SA_+"base.py:ActivityIndicator.norm_by"],"state machine; induction over calls")
P("C187","LISIRD missing markers and the sunspot curve on a colour bar (violated)",
 "In Lyman alpha exactly the values equal to the common missing marker become missing. Violated: a NaN marker is NotImplementedError, other LISIRD series keep markers as measurements, and normalising a LISIRD index always fails. The colour-bar scale ends at the maximum rounded to hundreds: a value is drawn on the bar iff it is at most that; a maximum rounded down is drawn beyond the bar, one below 50 at infinity.",
 "all data, markers, maxima","all values",[SA_+"lisird/lisird.py:LISIRDLoader.convert_nans",SA_+"lisird/lisird.py:LISIRD.run_normalization",SA_+"sunspot_number/sidc.py:SIDC.plot_on_colorbar"],"IEEE model, floor arithmetic")
P("C188","Saving figures (violated)",
 "An accepted save writes PDF and PNG next to each other under the base name, changes no other file, and leaves files saved under other undotted names alone; a refused save writes nothing. Each panel's share of a subplots figure is base size times scale. Violated: a base name containing a dot loses everything after the last one, so n_0.5 and n_0.7 overwrite each other; the stamp stays on the figure, so the PDF carries the stamps of all earlier saves of the figure; a refused PNG leaves its stamp behind.",
 "all figures, base names, options, series of saves","all series of saves",[PLT+"tools.py:save",PLT+"tools.py:subplots"],"file system as a map; induction over saves")
P("C189","History of an interactive selection (violated)",
 "While selecting, the corners are the dragged rectangles in order, each drawn once and numbered correctly whatever was in the axes; after disconnecting, drags have no effect and the samples are those of sample_data over all drags. Violated: the summary's number of patches is increased by the number of empty patches, once per disconnect; a rectangle dragged twice counts every spectrum twice; with matplotlib 3.7 or later (3.10.6 is pinned) no selection can be started.",
 "all sequences of drags and disconnects, data, random generators","all histories",[PLT+"select_data_from_figure.py:SelectFromPlot2D.disconnect",PLT+"select_data_from_figure.py:SelectFromPlot2D.onselect",PLT+"select_data_from_figure.py:SelectFromPlot2D.start_selector"],"state machine over drags; induction")
P("C190","Values of adaptive mesh cells (violated)",
 "The value of a cell comes from exactly the data inside it, whatever the order the parallel loop visited the cells: missing without data, outside the count limits or when filtered, else the count or mean; counts of all cells add up to the number of data covered; means lie between bounds of the data; rows with a missing entry are dropped, all missing is ValueError. Violated: dependent values that are all equal are replaced by counts by default, and clip_data has no effect.",
 "all meshes, data, visiting orders, limits","all meshes and data",[PLT+"spiral.py:SpiralPlot2D.agg",PLT+"spiral.py:SpiralPlot2D.build_grouped",PLT+"base.py:PlotWithZdata.set_data"],"on top of the mesh model; grouping by cell")
P("C191","Drawing adaptive mesh plots (violated)",
 "A drawn rectangle contains exactly the positions of the data of its cell (modulus on log axes); colour limits are ordered, within the data, and never replace the caller's; opacities fall from 1 at the smallest aggregated value to 0. Violated: naming one filter threshold switches the other off although the call is documented to update; limited colours of count plots are [1, 1]; the cell with the largest spread is invisible.",
 "all cells, data, thresholds","all real inputs",[PLT+"spiral.py:SpiralMesh.set_cell_filter_thresholds",PLT+"spiral.py:SpiralPlot2D.make_plot",PLT+"spiral.py:SpiralPlot2D._limit_color_norm"],"real arithmetic, monotone powers")
P("C192","The problem handed to the optimiser (violated)",
 "Parameters only ever come from the optimiser, started at the requested start (or the class's guess) with one ordered pair of bounds per parameter, a start within them and finite residuals there; stored bounds are those used, by name; bounds given by name are matched by name, whatever the order or extra entries, and a missing one is KeyError; p0=None starts strictly within any bounds; a start of the wrong length is TypeError; an uncertainty of zero always fails. Violated: a class whose own guess fails cannot be fitted from a given start, and method=\"lm\" alone always fails.",
 "all requests, models, data, optimisers","all requests and optimisers",[FF+"core.py:FitFunction._run_least_squares"],"SciPy's checks as a decision list; the optimiser is an arbitrary function")
P("C193","What a fit minimises (violated)",
 "The default objective never exceeds half the sum of squared (weighted) residuals and equals it iff no residual exceeds the scale; one observation changes it by at most the scale per unit of its residual; with uncertainties it is unchanged by expressing ordinate, uncertainty and model in another unit. Violated: without uncertainties the unit of the ordinate decides which of two candidates fits better.",
 "all residuals, scales, data, models","all real data",[FF+"core.py:FitFunction._run_least_squares"],"closed form of the Huber loss, real arithmetic")
P("C194","The trend function and what is shown of it (violated)",
 "The trend is fitted to one observation per remaining column: mid-point of its bin (ten to that power on a logarithmic axis), its own parameters as ordinate and uncertainty, selected by the limits in order; no fits or a weights keyword are ValueError, an unknown parameter KeyError, a second logx TypeError, anything else with ordered limits succeeds. Every column used is labelled In Fit; on a linear axis only_plot_data_in_trend_fit draws exactly the columns used. Violated: a column cut off by an abscissa limit may be labelled In Fit; on a logarithmic axis nothing is drawn.",
 "all columns, parameters, limits, keywords","all columns",[FF+"trend_fits.py:TrendFit.make_trend_func",FF+"trend_fits.py:TrendFit.plot_all_ffuncs",FF+"trend_fits.py:TrendFit.plot_all_popt_1d"],"on top of the selection of observations (C40)")
P("C195","Turbulence built from a plasma",
 "Plasma.build_alfvenic_turbulence with one group of species holds the fluctuations of that group's (centre-of-mass) velocity and of the field in Alfven units of its mass density; with two groups separated by a comma those of the differential flow of the first against the second and the density of the second. The field in Alfven units has the plasma's Alfven speed as magnitude and the field's direction. A velocity common to all species, even a varying one, does not change the two-group turbulence; a constant one does not change the one-group turbulence. The same group on both sides (in any order) is NotImplementedError, more than one comma or an unknown species ValueError, an index that is not made of times TypeError.",
 "all plasmas, species strings, windows, frames of reference","all time series and species strings",["solarwindpy/core/plasma.py:Plasma.build_alfvenic_turbulence","solarwindpy/core/alfvenic_turbulence.py:AlfvenicTurbulence.set_data"],"composition of the plasma and turbulence models")
P("C196","An ion's properties against the plasma's (violated)",
 "For measured data the ion's mass density, pressure, temperature, sound speed, anisotropy and entropy are what the plasma reports for that species; the sound speed is the thermal speed times sqrt(gamma/2); ions are equal iff species and data are. Violated: a missing density is missing in the ion but zero in the plasma, a missing parallel speed is a missing anisotropy in the ion but an infinite one in the plasma; an ion built from just the required columns is accepted but its pressure, temperature, sound speed, anisotropy and entropy raise ValueError.",
 "all species, data incl. missing","all rows",["solarwindpy/core/ions.py:Ion.anisotropy","solarwindpy/core/ions.py:Ion.cs","solarwindpy/core/ions.py:Ion.specific_entropy","solarwindpy/core/ions.py:Ion.__eq__"],"IEEE model, row by row")
P("C197","Label texts are balanced LaTeX",
 "For plain measurement, component and species of numerator and denominator, any normalisation, placement of units and description: the text is the description and one formula $...$ (two if units go to a new line); inside a formula no dollar occurs and every LaTeX group opened is closed. Violated for LaTeX given by the user: the clean-up turns a trailing thin space into an escaped brace.",
 "all measurements, components, species, normalisations, descriptions","all strings",[PLT+"labels/base.py:TeXlabel._build_one_label",PLT+"labels/base.py:TeXlabel._combine_tex_path_units_axnorm"],"scanner invariant through every replacement of the clean-up")
P("C198","Exact text of a label (violated for missing parts)",
 "Each documented measurement shows exactly the text listed in the specification, depending only on whether component and species are given; any other shows {M}_{{C};{S}}, {M}_{{C}}, {M}_{{S}} or {M}; uncertainties the same in sigma(...). Violated: the uncertainty of Elsasser variables, turbulent energies, gyrofrequency, ... without species ends in '_)', flux without species has empty parentheses, positions without component begin with a subscript.",
 "all documented measurements, all components and species lists","all components and species lists",[PLT+"labels/base.py:TeXlabel._build_one_label",PLT+"labels/base.py:_templates"],"the clean-up commutes with filling in texts that do not interfere with it; the rest is a finite table checked by the kernel")
P("C199","Which labels are equal (violated)",
 "Labels of measurements without own text are equal iff both or none is an uncertainty, measurement and the shown parts of the subscript have the same LaTeX in the same order, and the units agree; labels showing only the species are equal iff the species' LaTeX is. Violated: component p alone equals species p alone, the species of a magnetic field is not shown, p_bimax equals p: such labels collide as dictionary keys.",
 "all pairs of labels","all pairs",[PLT+"labels/base.py:Base.__eq__",PLT+"labels/base.py:Base.__hash__",PLT+"labels/base.py:TeXlabel._build_one_label"],"unique parsing of balanced texts")
P("C200","Labels of abundances and dates (violated)",
 "The save path of an abundance label determines both species up to capitalisation and whether the ratio is photospheric; an epoch label is refused iff its space is unknown and its path determines both units of time. Violated: percent and number share a path although they are different labels; particle codes (a, p1, e, ...) are capitalised and then not translated; date labels differing in capitals share a path.",
 "all species, kinds, spaces","all strings",[PLT+"labels/elemental_abundance.py:ElementalAbundance",PLT+"labels/datetime.py:DateTime",PLT+"labels/datetime.py:Epoch"],"titled text cannot contain the separator: unique parsing")
P("C201","Sunspot, correlation, manual and count labels (violated)",
 "Sunspot labels exist for exactly the eight kinds in any capitalisation and kinds have different texts and paths; a correlation label is refused iff a constituent is neither text nor label (or the method is empty in short form), its text has no blank and no doubled thin space; a manual label needs a unit, drops enclosing dollar signs, spells out known units, shows brackets iff the unit is not empty. Violated: correlation and comparison paths a-b with c and a with b-c collide; counts of another label accept text and then fail, and save \\lt and \\gt under one path.",
 "all keys, constituents, methods, texts, units","all strings",[PLT+"labels/special.py:SSN",PLT+"labels/special.py:Xcorr",PLT+"labels/special.py:ManualLabel",PLT+"labels/special.py:CountOther",PLT+"labels/special.py:ComparisonLable._build_path"],"replacement lemmas")
P("C202","Attribute access and copying of a plasma (violated)",
 "On a constructed plasma every attribute access ends: class and instance names give these, other names the ion of that name, anything else is AttributeError; hasattr of a known species is true unless a class name hides it. Violated: a plasma can be neither copied (copy.copy, copy.deepcopy) nor unpickled, since looking up a missing attribute asks for the ions, which are missing too (endless recursion, RecursionError); ions named like a method or property (n, b, S, ...) are unreachable as attributes.",
 "all plasmas, attribute names, rebuild protocols","all names and objects",["solarwindpy/core/plasma.py:Plasma.__getattr__","solarwindpy/core/plasma.py:Plasma.ions"],"attribute lookup as a fuelled recursion; no amount of fuel suffices")
P("C203","Histories of setters on a plasma (violated)",
 "After any history of set_spacecraft, set_auxiliary_data and estimate_electrons(inplace=True), ions and field belong to the data, and spacecraft and auxiliary data carry its index; in-place electrons keep every old species' values and add the estimate. Violated: set_data on an existing plasma keeps the old ions and attachments; a refused set_data may leave the data replaced and the field old; auxiliary data may duplicate columns of the data after in-place electrons.",
 "all histories of calls","all histories",["solarwindpy/core/plasma.py:Plasma.set_data","solarwindpy/core/plasma.py:Plasma.set_spacecraft","solarwindpy/core/plasma.py:Plasma.set_auxiliary_data","solarwindpy/core/plasma.py:Plasma.estimate_electrons","solarwindpy/core/plasma.py:Plasma._set_ions"],"invariant of a state machine over setter calls")
P("C204","Smoothing of activity indices (violated)",
 "Each smoothed sample is the mean of the values measured within half a window on either side of its date, missing iff there is none, and lies between the smallest and the largest of them; there is one sample per measurement, in order. Violated: the first smoothed sample is the first measurement itself, dated half a window before it.",
 "all series with missing values, all windows","all series",[SA_+"lisird/extrema_calculator.py:ExtremaCalculator.set_data"],"rolling mean over dated samples")
P("C205","Dates of solar extrema (violated)",
 "Every extremum is the first sample attaining the largest (smallest) smoothed value of its interval between neighbouring threshold crossings; its date is half a window before a measurement other than the first, so no extremum lies in the last half window; dates do not depend on unit and zero point of index and threshold; five of the Ca K quantities are ValueError. Violated: with the default window a maximum may be dated before the first measurement.",
 "all series with missing values, thresholds, windows, units","all series",[SA_+"lisird/extrema_calculator.py:ExtremaCalculator.find_extrema",SA_+"lisird/extrema_calculator.py:ExtremaCalculator._find_extrema",SA_+"lisird/extrema_calculator.py:ExtremaCalculator.cut_data_into_extrema_finding_intervals",SA_+"lisird/extrema_calculator.py:ExtremaCalculator.set_name"],"the whole calculation from raw series to table, equivariance under affine maps")
P("C206","Shipped reference abundances (violated in single cases)",
 "Both tables hold the same 83 elements with different symbols and numbers; an element is found by symbol and number with the same values, anything else is KeyError, never AssertionError. A ratio is missing exactly when one element has no photospheric abundance, is 1 for an element over itself and at most 1 over hydrogen. Ratios to 'H' and to 1 agree, except that H/H in 2009 has a missing uncertainty by symbol and none by number. get_comment: never a comment (nor an error) for 2009; for 2021 ValueError for a wrong key type, None for an unknown element; elements commented 'meteorites' (documented as adopted from chondrites) have no abundance except lithium.",
 "all elements, ways of naming them, both years","all pairs of elements and keys",["solarwindpy/core/abundances.py:ReferenceAbundances._load_data","solarwindpy/core/abundances.py:ReferenceAbundances.get_element","solarwindpy/core/abundances.py:ReferenceAbundances.get_comment","solarwindpy/core/abundances.py:ReferenceAbundances.abundance_ratio","solarwindpy/core/data/asplund2009.csv","solarwindpy/core/data/asplund2021.csv"],"tables transcribed by tools/abundance_table.py; uniqueness of symbols and numbers makes every lookup a single row")
P("C207","Shipped solar cycles and bands about their extrema",
 "The shipped table gives 25 cycles for every date of the call; each time after 1755-02-01 up to 2036-11-29 (the date of the call once that is after 2030-12-01) lies in exactly one cycle and one of its edges. Cutting about extrema names a time 'N-Min' or 'N-Max' exactly if it lies in that extremum's band; if two selected extrema are closer than a band is wide every call is ValueError. With the shipped table all extrema can be cut exactly up to a total width of 1065 days (minima alone 3287, maxima alone 2677), so the default of 365 days on either side works. AttributeError before the bands are computed, KeyError for an unknown kind.",
 "all dates of the call, epochs, widths, selections","all epochs and widths",[SA_+"base.py:IndicatorExtrema.calculate_intervals",SA_+"base.py:IndicatorExtrema.calculate_extrema_bands",SA_+"base.py:IndicatorExtrema.cut_about_extrema_bands",SA_+"sunspot_number/sidc.py:SSNExtrema.load_or_set_data",SA_+"sunspot_number/ssn_extrema.csv"],"the table is regular, so the tiling theorem applies; bands are disjoint iff extrema are apart")
P("C208","Species without tabulated constants (violated)",
 "A plasma may hold any species names, but constants exist for ten (p, p1, p2, pm, p_bimax, a, a1, a2, a_bimax, e), the same in all five tables. Densities, velocities and drifts of single species need none. Mass density, pressure, temperature, beta, anisotropy, sound, Alfven and firehose quantities, entropy, centre-of-mass velocity and drift from it, m/q projection, drift pressure, heat flux, Coulomb logarithm, collision frequency and VDF ratio raise KeyError exactly when a species asked for has no constants and are otherwise unaffected by other species. Violated locality: Coulomb number and electron estimate raise KeyError for ANY untabulated species of the plasma.",
 "all species names, plasmas, rows, ways of asking","all names and subsets",["solarwindpy/core/units_constants.py:Constants","solarwindpy/core/plasma.py:Plasma.nc","solarwindpy/core/plasma.py:Plasma.estimate_electrons","solarwindpy/core/plasma.py:Plasma.velocity","solarwindpy/core/ions.py:Ion.mass_density"],"the methods modelled again with failing look-ups, compared with those with total constants")
P("C209","What a fit reports about its initial guess (violated)",
 "A fit that returns normally has stored, by name, the parameters found, and its annotation shows them with one line per parameter: name, initial guess and the bounds used; before a fit there is no such table; dof is the number of used observations minus the number of parameters. Violated: the guess shown is always the class's own, even when the fit was started from a given p0; and for a line with two neighbouring observations at the same abscissa (exactly then the guess is None) make_fit never returns normally: after a successful optimisation it raises TypeError whatever return_exception says, with new parameters stored beside the old annotation and plotter, and dof raises TypeError.",
 "all data, classes, requests, optimiser outcomes, earlier states","all data sets and histories",[FF+"core.py:FitFunction.initial_guess_info",FF+"core.py:FitFunction.dof",FF+"core.py:FitFunction.make_fit",FF+"core.py:FitFunction.build_TeX_info",FF+"lines.py:Line.p0",FF+"lines.py:LineXintercept.p0"],"one call of make_fit composed of guess, optimiser, statistics and report")

fix("C120", statement="After verify_monotonic_epoch each time occurs at most once, with the first value downloaded for it; apart from three times rejected by hand in the Penticton F10.7 series no time is lost, and the order is kept. Violated: order is not checked; distinct times in any order pass.")
P("C210","Data products of solar activity (violated)",
 "A key is accepted iff it names one of the seven sunspot or five LISIRD series (NotImplementedError otherwise) and different keys have different addresses. A sunspot download keeps every value under its name with the marker -1 missing in every column, adds the standard error(s), and dates data by the Gregorian calendar (monthly data on the first of the month). A total series can be constructed iff its data can be loaded. Violated: the documented key f107-pen is refused; hemispheric series can never be constructed (KeyError after downloading and renewing the cache); SSNPlot can never be constructed (AttributeError: the label class it asks for is in another module).",
 "all keys, downloaded tables, dates, cache states","all tables and histories",["solarwindpy/solar_activity/base.py:ID.set_key",SA_+"sunspot_number/sidc.py:SIDC_ID",SA_+"sunspot_number/sidc.py:SIDCLoader.download_data",SA_+"sunspot_number/sidc.py:SIDC.__init__",SA_+"lisird/lisird.py:LISIRD_ID",SA_+"plots.py:IndicatorPlot.__init__"],"tables by name, calendar arithmetic, composition with the cache model")
P("C211","Cycle, edge and extremum of every sunspot datum (violated at the minima)",
 "For every well-formed table of extrema each datum gets the number of the last cycle whose minimum is before it (none at or before the first minimum and after the end); rising edge up to the recorded maximum, falling after; a measured datum is a maximum iff it is at least half the largest value measured in its cycle, else a minimum of its own or the next cycle. With the shipped table every measured datum from 1755-02-02 on has all three labels. Violated: the datum dated at a minimum (the month of the minimum) is counted to the previous cycle, that of cycle 1 to none.",
 "all tables, dates of the call, series","all series",[SA_+"sunspot_number/sidc.py:SIDCLoader.load_data",SA_+"sunspot_number/sidc.py:SIDC.calculate_extrema_kind",SA_+"sunspot_number/sidc.py:SIDC.calculate_edge"],"interval chain of C65, independent specification of the cycle")
P("C212","The annotation of a fit, in full (violated for documented reports)",
 "With power-of-ten notation the annotation is, for every formula of plain lines, plainly named parameters and choice of statistics: the formula, one line per parameter in order (value and uncertainty, infinite ones as \\infty), one blank line, number of points and both reduced chi-squared to two decimals, and R-squared last. If every parameter is missing (or there is none) it is the formula and 'Fit Failed' whatever the options. It is available iff no infinite or missing value has a finite uncertainty (else ValueError) and the statistics asked for are there. Violated: chi-squared is asked for by default, so a report with the documented chisq_dof=None or a plain number raises AttributeError; rsq=None raises TypeError; an uncertainty without a value is accepted but relative_error then raises KeyError.",
 "all reports, formulas, names, numbers, options","all texts and reals",[TXI+":TeXinfo.build_info",TXI+":TeXinfo._build_fit_parameter_info",TXI+":TeXinfo.TeX_popt",TXI+":TeXinfo.TeX_relative_error"],"full model of build_info; lemmas on text replacement; exact decimals")
P("C213","Math mode of every line of the annotation (violated)",
 "matplotlib draws an annotation line by line, so each line must have an even number of dollars. It does for every report in power-of-ten notation. Violated: with convert_pow_10=False the table of relative errors is one math expression over several lines, for every fit; a failed fit puts a formula of several lines (HeavySide, hinges, composites) between one pair of dollars.",
 "all reports, options, formulas","all texts",[TXI+":TeXinfo._build_fit_parameter_info",TXI+":TeXinfo.build_info",TXI+":TeXinfo.TeX_relative_error"],"automaton counting dollars per line, invariant under the replacements")
P("C214","The printed formula is the fitted curve (violated by two classes)",
 "Every class prints, next to its parameters, a LaTeX formula. Read as mathematics, with the printed names standing for the fitted values, it gives the value of the curve at every point: for the lines, Gaussians, exponentials, power laws (positive base), steps and composites (away from the step, whatever H(0) means to the reader), and for the hinges whenever the printed equations between the names hold and no divisor is zero. Every line of every formula is one the annotation prints unchanged (C212). Violated: GaussianLn (no minus sign) at every x other than e^m, Moyal at its centre.",
 "all parameter values, all abscissae, all 22 classes","all reals",[FF+"lines.py:Line.TeX_function",FF+"gaussians.py:GaussianLn.TeX_function",FF+"hinge.py:Saturation.TeX_function",FF+"composite.py:GaussianPlusHeavySide.TeX_function",FF+"moyal.py:Moyal.TeX_function"],"a LaTeX reader (lexer, parser, evaluation) as specification, applied to the printed texts")
fix("C212", statement="With power-of-ten notation the annotation is, for every formula of plain lines, plainly named parameters, translation of names and choice of statistics: the formula, one line per parameter (untranslated ones in their order, then the translated ones; value and uncertainty, infinite ones as \\infty), one blank line, number of points and both reduced chi-squared to two decimals, and R-squared last. The same without uncertainties (strip_uncertainties), in exponent notation (convert_pow_10=False) and, whatever else is asked for, simplified for a paper: name = shortest number without trailing zeros, no uncertainty, formula and statistics unchanged. The table of relative errors has one row per displayed parameter. If every parameter is missing (or there is none) it is the formula and 'Fit Failed' whatever the options. It is available iff no infinite or missing value has a finite uncertainty (else ValueError) and the statistics asked for are there. Violated: chi-squared is asked for by default, so a report with the documented chisq_dof=None or a plain number raises AttributeError; rsq=None raises TypeError; an uncertainty without a value is accepted but relative_error then raises KeyError.")
LSP="solarwindpy/plotting/labels/special.py"
P("C215","Labels built from labels, after a change (violated)",
 "Newly made labels (probabilities, counts, functions, absolute values, comparisons, correlations, frequencies of other labels, nested to any depth) say exactly what their settings and those of their constituents mean: text, path, units. After any history, set_constituents of the comparisons and build_label, in order of creation, make them all say so again. Violated: without that a label keeps its old text and path whatever is done to its own settings or its constituents, while its units follow the constituents: an absolute value of a changed label shows the old symbol with the new unit; a comparison keeps units that its constituents no longer have, even after build_label; a label may be made its own constituent, and its units then never terminate (RecursionError). A frequency's path names its units or UNK.",
 "all heaps of labels, all histories of constructors, setters and build_label, all nesting depths","all histories",[LSP+":Probability",LSP+":CountOther",LSP+":MathFcn",LSP+":AbsoluteValue",LSP+":ComparisonLable",LSP+":Xcorr","solarwindpy/plotting/labels/datetime.py:Frequency","solarwindpy/plotting/labels/base.py:TeXlabel.build_label"],"heap of label objects with stored texts; refinement to a recursive meaning, by induction on the order of creation")
CPL="solarwindpy/core/plasma.py"
P("C216","Independence of the reference frame (violated with project_m2q or missing velocities)",
 "Adding one velocity to every species (a Galilean change of frame) leaves densities, pressures, temperatures, betas, anisotropies, wave speeds, entropies, Coulomb logarithms, drifts of two species and collision frequencies unchanged for every row (missing and infinite values included) and every argument. On rows where all species are measured with positive density every velocity the plasma reports, the centre of mass and the estimated electrons included, is shifted by exactly that velocity, and drifts of sums, dynamic pressure and heat flux are unchanged. Violated: the drift projected by mass per charge is frame independent iff both species have the same mass per charge; otherwise the VDF ratio of one and the same plasma exceeds any bound in a suitable frame; with a missing velocity the centre of mass follows the frame only by the mass fraction of the measured species.",
 "all rows, boosts, species, argument lists","all reals and data",[CPL+":Plasma.velocity",CPL+":Plasma.dv",CPL+":Plasma.pdynamic",CPL+":Plasma.heat_flux",CPL+":Plasma.nuc",CPL+":Plasma.vdf_ratio",CPL+":Plasma.estimate_electrons"],"metamorphic: the physics model on the transformed row; affine maps commute with the centre of mass")
P("C217","Independence of the axes",
 "Turning (or reflecting) the coordinate axes, i.e. applying one orthogonal matrix to every velocity and to the magnetic field, turns every reported velocity, drift and electron velocity by the same matrix and leaves every scalar (beta, Alfven speeds, anisotropy factor, dynamic pressure, heat flux, collision frequency and number, VDF ratio, electron density and temperature) unchanged, on measured rows with positive densities, for every argument.",
 "all orthogonal matrices, measured rows, species, argument lists","all reals",["solarwindpy/core/vector.py:Vector.project",CPL+":Plasma.velocity",CPL+":Plasma.dv",CPL+":Plasma.pdynamic",CPL+":Plasma.heat_flux",CPL+":Plasma.nuc",CPL+":Plasma.nc",CPL+":Plasma.vdf_ratio",CPL+":Plasma.estimate_electrons"],"metamorphic: orthogonal maps preserve scalar products; same induction as C216")
P("C218","Rescaling of the densities",
 "Multiplying all densities by k > 0 multiplies number and mass densities, thermal pressures, betas, dynamic pressure and heat flux by k, Alfven speeds by k^(-1/2), specific entropies by k^(1-gamma) and the estimated electron density by k, and leaves velocities, centre of mass, drifts, temperatures, sound speeds, VDF ratio, electron velocity and thermal speed unchanged: for every row (missing and infinite values included) and every argument. The Coulomb logarithm of measured like-charged species decreases by half the logarithm of k.",
 "all rows, factors, species, argument lists","all reals and data",[CPL+":Plasma.number_density",CPL+":Plasma.mass_density",CPL+":Plasma.pth",CPL+":Plasma.beta",CPL+":Plasma.ca",CPL+":Plasma.specific_entropy",CPL+":Plasma.estimate_electrons",CPL+":Plasma.lnlambda"],"metamorphic: a positive factor commutes with NaN-skipping sums, products and quotients")
P("C219","Rescaling of thermal speeds and field; reversal of the field",
 "Multiplying all thermal speeds by k > 0 multiplies pressures, temperatures, betas and entropies by k^2 and sound speeds by k; multiplying the magnetic field by k > 0 divides betas by k^2, multiplies Alfven speeds by k and leaves heat flux and VDF ratio unchanged; reversing the field changes the sign of the heat flux and nothing else: for every row and every argument. On measured rows the deviation of the anisotropy factor from one scales with k^2 and 1/k^2.",
 "all rows, factors, species, argument lists","all reals and data",[CPL+":Plasma.pth",CPL+":Plasma.temperature",CPL+":Plasma.beta",CPL+":Plasma.ca",CPL+":Plasma.afsq",CPL+":Plasma.heat_flux",CPL+":Plasma.sound_speed"],"metamorphic, as C218")
P("C220","What the reproducibility record says about the code that ran",
 "get_git_info answers as a whole or not at all: commit, abbreviation (its first seven characters), dirty mark and branch all come from git, or they are 'unknown' (mark None) - exactly when git or the directory is missing, no directory upwards is a repository or there is no commit yet; only a path that is a file or may not be entered raises. On a machine that holds still the commit is the one checked out in the nearest enclosing repository, the branch its name (HEAD when detached), and the mark is set exactly when a tracked file was edited or deleted without staging, never on a clean checkout. get_info lists the five dependencies with their versions, 'not installed' exactly on ImportError. Violated: staged edits and untracked files leave the record (and the citation) of the clean checkout; a checkout between the commands pairs the commit of one branch with the name of another; a package installed below a user's own repository is cited with that project's commit; commits that share seven characters are cited alike.",
 "all repositories, directory trees, changes between the commands, interpreters","all histories and interleavings",["solarwindpy/reproducibility.py:get_git_info","solarwindpy/reproducibility.py:get_info","solarwindpy/reproducibility.py:get_citation_string","solarwindpy/reproducibility.py:print_info"],"model of git's three answers and of the directory walk, one world per command; case analysis")
P("C221","Turbulence under a change of axes, field sign, units, density and clock",
 "Turning or mirroring the axes turns the fluctuations and Elsasser variables and leaves every energy, helicity and ratio unchanged (rows measured or missing as a whole). Reversing the field exchanges the Elsasser variables and their energies and changes the sign of both cross helicities, nothing else; in the rectified version it changes nothing at all. Another speed unit multiplies energies by its square and leaves the normalised quantities; a density k^2 times higher divides field fluctuations by k and multiplies the Alfven ratio by k^2; moving all time stamps changes nothing. A field that is the velocity (or its opposite) in Alfven units plus a constant background has normalised cross helicity 1 (-1), no residual energy and Alfven ratio 1 at every row that fluctuates.",
 "all time series, windows, rotations, factors","all reals and data",["solarwindpy/core/alfvenic_turbulence.py:AlfvenicTurbulence.set_data","solarwindpy/core/alfvenic_turbulence.py:AlfvenicTurbulence.normalized_cross_helicity","solarwindpy/core/alfvenic_turbulence.py:AlfvenicTurbulence.bfield"],"metamorphic: the rolling mean is linear on rows that are whole; negation and positive factors commute with every step")
P("C222","Turbulence from inputs with different time stamps (violated)",
 "When velocity, field and density have different time indices the rows of the result are the union of all time stamps, once each, in time order, and everything is computed as if each input had been reindexed to them with NaN. With a window of time the velocity fluctuations depend only on the velocity's own measured stamps and the field fluctuations only on stamps shared by field and density: each is the value minus the mean of the measured values of the last window. Violated: a stamp without velocity is reported with kinetic and Elsasser energies 0 instead of missing, hence residual energy -1 and Alfven ratio 0 wherever the field fluctuates; a window counted in rows counts rows of the common frame, so a stamp that only another input has changes the velocity fluctuation.",
 "all finite indices of integer nanoseconds, all values (missing and infinite included), windows, minimal counts","all data",["solarwindpy/core/alfvenic_turbulence.py:AlfvenicTurbulence.set_data","solarwindpy/core/alfvenic_turbulence.py:AlfvenicTurbulence.sigma_r","solarwindpy/core/alfvenic_turbulence.py:AlfvenicTurbulence.ev"],"partial functions on time stamps; bijection between rows and stamps carries windows over")
P("C223","One plasma at different growth rates (violated)",
 "A mode growing at 10^-2 also grows at 10^-3, so a plasma unstable at a faster rate should be unstable at every slower one. From 10^-2 to 10^-3 this holds for every beta >= 0 and anisotropy >= 0, on the same side of isotropy, mirror staying mirror and oblique firehose staying so; from 10^-3 to 10^-4 for all small anisotropies and, for large ones, at 0.02 <= beta <= 6. Violated: at every beta >= 9 there are anisotropies that are mirror-unstable at 10^-3 and 'Stable' at 10^-4, and at every beta <= 0.015 ones that are AIC-unstable at 10^-3 and 'Stable' at 10^-4. From beta = 14 on the two 'Between' bins never occur, at any growth rate.",
 "all real betas and anisotropies, the three growth rates","uncountably many",[VI+":insta_params",VI+":beta_ani_inst",VI+":StabilityCondition.stability_bin"],"cross-multiplied power inequalities; concavity of powers reduces intervals to their ends, which are exact rational checks")
P("C224","Names and colours of the stability bins (violated with matplotlib >= 3.9)",
 "Every row of a stability condition is drawn in one of five different colours, and the tick in the middle of that colour's band on the bar carries the name of what the row is: 'MM' exactly when the mirror threshold is exceeded, and so on; values nearest to a bin get its colour, values outside -0.5..4.5 none, positions that are not bins have no text (KeyError); names and numbers are one-to-one. Violated: from matplotlib 3.9 on (3.10.6 is pinned in requirements.txt) cmap and cbar_kwargs raise AttributeError.",
 "all values, rows, matplotlib versions","all reals and versions",[VI+":StabilityCondition.stability_map",VI+":StabilityCondition.stability_map_inverse",VI+":StabilityCondition.norm",VI+":StabilityCondition.cmap",VI+":StabilityCondition.cbar_kwargs"],"matplotlib's normalisation and colour index as real arithmetic")
P("C225","Fits in other units (violated for some guesses)",
 "Expressing the abscissas in a unit k times smaller and the ordinates in one c times smaller, and converting every parameter by its dimension, turns each curve (lines, two lines, hinges, saturation, Gaussians, Moyal, composites with steps, exponentials, power laws) and each derived quantity into the same curve in the new units, for all values including missing and infinite ones; and the initial guess of the lines, two lines, hinges, steps, Gaussians, Moyal and composites from the converted data is the converted guess, errors included. Violated: the step curve at its step (value quadratic in the heights); the saturated hinge, whose thresholds 1e-15 and 1e-10 are pure numbers; angles between lines, which are angles on paper; the first slope of a hinge at a point with no data below it (1 in any units); the guesses of exponentials and power laws (rates and exponents 1), of the cumulative exponential (a rate guessed as an ordinate) and of the logarithmic Gaussian (logarithm of the height as the height).",
 "all data, parameters, unit factors","all reals and data",[FF+"lines.py:Line",FF+"hinge.py:TwoLine",FF+"hinge.py:HingeSaturation",FF+"gaussians.py:Gaussian",FF+"composite.py:GaussianPlusHeavySide",FF+"heaviside.py:HeavySide",FF+"exponentials.py:Exponential",FF+"power_laws.py:PowerLaw",FF+"moyal.py:Moyal"],"metamorphic: a positive factor commutes with medians, masks, differences and weighted sums")
P("C226","Fits from another zero of the abscissa (violated for some guesses)",
 "Counting the abscissas from another zero and moving every position parameter with them leaves each curve given by positions unchanged, for all values; a line and an exponential keep slope and rate, their intercept and amplitude become the value of the old curve at the new zero. The initial guesses of two lines, saturation, hinges and step move with the data for all data, those of Gaussians, Moyal and Gaussians times a step for finite data with non-zero total. Violated: the guessed intercepts of both straight lines move the wrong way (up by m t instead of down, left by t instead of right); the Gaussian plus step guesses its cut at three quarters of the mean abscissa, so it moves by 3t/4 only and lies above the mean for data around a negative mean.",
 "all data, parameters, shifts","all reals and data",[FF+"lines.py:Line.p0",FF+"lines.py:LineXintercept.p0",FF+"hinge.py:TwoLine.p0",FF+"hinge.py:HingeMin.p0",FF+"hinge.py:HingeAtPoint.p0",FF+"heaviside.py:HeavySide.p0",FF+"gaussians.py:Gaussian.p0",FF+"composite.py:GaussianPlusHeavySide.p0"],"metamorphic: a shift commutes with medians, extremes and masks and cancels in differences")
P("C227","Fits and the order of the samples (violated for lines and hinges)",
 "Listing the same samples (abscissa, ordinate, weight) in another order leaves which of them are used, the initial guess or error of Gaussians, Moyal, steps, composites, exponentials and power laws, the objective of the optimiser, the reduced chi-square and R-squared unchanged, for all values including missing and infinite ones. Violated: the slopes guessed for lines and hinges are those between neighbours in the list, so another order gives another guess, and a point measured twice gives no guess if the two are listed next to each other; the hinge at a point takes the height of the first listed of two equally near samples.",
 "all samples, permutations, limits","all data and orders",[FF+"core.py:FitFunction.set_fit_obs",FF+"core.py:FitFunction._calc_popt_pcov_psigma_chisq",FF+"core.py:FitFunction.rsq",FF+"gaussians.py:Gaussian.p0",FF+"heaviside.py:HeavySide.p0",FF+"composite.py:GaussianTimesHeavySide.p0",FF+"lines.py:Line.p0",FF+"hinge.py:HingeAtPoint.p0"],"sums, extremes and sorted medians as functions of the multiset; masks as filters of rows")
P("C228","Histograms of labelled measurements (violated for repeated labels)",
 "A 1-D histogram pairs every abscissa with the value y has at the same label, in whatever order y is given; labels of y alone are ignored, an abscissa without a value still marks its bin as observed, and the count of a bin is the number of its abscissas whose label has a value. A 2-D histogram has one row for exactly the labels with a number in x, y and z, and ValueError without any. With distinct labels the bins are those of the rows. Violated: as soon as two stored measurements carry the same label (two spacecraft, repeated times) no histogram can be evaluated: ValueError for every choice of bins, normalisation and aggregation.",
 "all labelled Series, orders, bins, aggregations","all data and label multisets",[PLT+"hist1d.py:Hist1D.set_data",PLT+"base.py:PlotWithZdata.set_data",PLT+"agg_plot.py:AggPlot.joint",PLT+"agg_plot.py:AggPlot.agg"],"label lookup as search; looking the labels up again multiplies rows exactly when a label repeats (induction over the rows)")
P("C229","1-D histograms of an orbit (violated for densities)",
 "For an orbit of two or more disjoint intervals the count curve of a leg holds in every bin the number of measurements of that leg in the bin with a value, 0 where there are none, and the two curves add up to the measurements during the two legs. Violated: the density of such a histogram always raises (TypeError; ValueError for means).",
 "all orbits, data with distinct times, bins","all data",[PLT+"orbits.py:OrbitHist1D.agg",PLT+"orbits.py:OrbitHist1D.make_plot",PLT+"orbits.py:OrbitPlot.grouped",PLT+"hist1d.py:Hist1D._axis_normalizer"],"counting by cell and leg, induction over the rows")
P("C230","The beta-anisotropy plot",
 "BetaRPlot by default shows in each cell the number of times at which the logarithms of beta and of the anisotropy both lie in the cell if there are at least five, and nothing otherwise; it can be made whenever one time has both. The anisotropy is labelled as one of pressures for a sum of species and of temperatures otherwise.",
 "all labelled Series with distinct labels, all non-decreasing edges, all species texts","all data",["solarwindpy/instabilities/beta_ani.py:BetaRPlot",PLT+"hist2d.py:Hist2D.agg",PLT+"agg_plot.py:AggPlot._agg_runner"],"rows by label (C228), counting by cell, the count limit 5")
P("C231","Which frames are vectors and tensors, and their magnitudes (violated)",
 "A Tensor is made from exactly the non-empty frames with plain columns par, per and scalar, a Vector from the non-empty ones with plain columns x, y, z (and from any non-empty frame with several column levels); anything else is ValueError and accepted data are kept unchanged. A vector's magnitude is sqrt(x^2+y^2+z^2) wherever the columns stand and whatever else is there. Violated: the magnitude of every tensor raises ValueError; a repeated column x is counted twice in a vector's magnitude.",
 "all frames, columns, rows","all column lists and data",["solarwindpy/core/tensor.py:Tensor.magnitude","solarwindpy/core/tensor.py:Tensor._validate_data","solarwindpy/core/vector.py:Vector.set_data","solarwindpy/core/vector.py:Vector.mag"],"column lists; three distinct names need three columns, pandas requires two")
P("C232","Projecting vectors measured at different times (violated)",
 "project and cos_theta of two vectors with distinct times give one row per time at which either was measured; at common times the projection of the two rows, in whatever order the times were given; any argument but a Vector is NotImplementedError. Violated: at a time at which only one was measured (or one row is missing altogether) parallel and perpendicular part and the cosine are 0 - a right angle - instead of missing.",
 "all pairs of vector series with distinct times, missing values","all data and time sets",["solarwindpy/core/vector.py:Vector.project","solarwindpy/core/vector.py:Vector.cos_theta"],"alignment as lookup by time; sums that skip missing terms")
P("C233","How a plasma is divided into species (violated for the temperature)",
 "Dividing one population into two species of the same kind, velocity and thermal speeds that share its density, or adding a species with zero density, changes no total: number and mass density, thermal pressure, beta, anisotropy, sound and Alfven speed, anisotropy factor, caani, specific entropy, bulk velocity, drift pressure and heat flux of the whole list are the same. A population divided in two has no drift pressure and no heat flux. Violated for the temperature of a '+' list: it grows by the temperature of the new species, even an empty one.",
 "all rows of measured data, all divisions, all other species and constants","all real data and lists of species",["solarwindpy/core/plasma.py:Plasma.number_density","solarwindpy/core/plasma.py:Plasma.pth","solarwindpy/core/plasma.py:Plasma.velocity","solarwindpy/core/plasma.py:Plasma.pdynamic","solarwindpy/core/plasma.py:Plasma.heat_flux","solarwindpy/core/plasma.py:Plasma.temperature"],"relation between two rows; every total is a sum carried by mass or charge")
P("C234","Electrons of a divided plasma (violated for the thermal speed)",
 "estimate_electrons gives the same density and velocity when a population is divided into two equal kinds or an empty species is added. Violated: when the divided population is the protons that set the temperature ('p1'), the squared electron thermal speed shrinks in proportion to the density left in 'p1'.",
 "all rows of measured data with positive charge density, all divisions","all real data and lists of species",["solarwindpy/core/plasma.py:Plasma.estimate_electrons"],"relation between two rows; C25 on both")
P("C235","The table of all activity indices (violated)",
 "get_all_indices gives one row for every time of every index (for the MgII index: the midnight of its day), in ascending order unless all indices share their times; every column holds in the row of a time its own value at that time and is missing otherwise, so that no value is lost, moved or invented. Violated: two MgII values on one day and no table can be made as soon as another index has a different time; an index stamped at another hour than midnight never shares a row with MgII, not even on the same day.",
 "all four series, all times","all series and times",["solarwindpy/solar_activity/__init__.py:get_all_indices"],"series as lists of timed values; outer join with multiplicities; missing as option")
P("C236","The listing of the available labels (violated)",
 "available_labels lists every key of the tables exactly as often as it occurs, on lines of sorted names with a common initial (capitals together); reading the printed text back gives the names. A table with an empty name is IndexError. Violated: the capitalised names are removed from the caller's list; v, w and T are not listed although labels and units exist, three measurements are listed twice; solar-wind speed, ion, charge-state-ratio and elemental-abundance labels are not listed though their modules are searched; 'from solarwindpy.plotting.labels import *' is AttributeError.",
 "all tables of names; the tables and classes shipped","all lists of names",["solarwindpy/plotting/labels/__init__.py:_clean_str_list_for_printing","solarwindpy/plotting/labels/__init__.py:available_labels","solarwindpy/plotting/labels/__init__.py:__all__"],"text of the listing and a reader for it; tables transcribed")
P("C237","Histograms and the order of the data",
 "The bin edges chosen for a data set and every aggregate of it - any function, count and value limits and normalisation, one or two dimensions - are the same in whatever order its rows are listed.",
 "all data sets, permutations, edges, options","all data and orders",[PLT+"agg_plot.py:AggPlot.calc_bins_intervals",PLT+"hist1d.py:Hist1D.agg",PLT+"hist2d.py:Hist2D.agg"],"filters and extremes as functions of the multiset")
P("C238","Histograms of joined data sets (violated for the default aggregation)",
 "With the same edges every bin of the histogram of two joined data sets counts what the two histograms count together and is missing only where both are; means combine with the counts as weights. Violated for the default aggregation: two data sets with a constant value each are counted, but joined they are averaged if the constants differ.",
 "all pairs of data sets, edges","all data",[PLT+"hist1d.py:Hist1D.agg",PLT+"agg_plot.py:AggPlot._agg_runner"],"groups of a concatenation; sums")
P("C239","Coarser bins",
 "A bin whose ends are the p-th and q-th of finer edges counts exactly what the finer bins p, ..., q-1 count together, for all data (including values on edges, missing and infinite ones).",
 "all data sets, all non-decreasing edges","all data and edges",[PLT+"agg_plot.py:AggPlot.make_cut",PLT+"hist1d.py:Hist1D.agg"],"half-open intervals are a disjoint union (induction)")
P("C240","Marginals and units of histograms",
 "Summing a 2-D count histogram over its y bins gives the 1-D histogram of the rows whose y lies in the binned range. Changing unit and origin of x in data and edges alike changes no bin of an unnormalised histogram and divides every density by the scale factor.",
 "all data sets, edges, positive factors, offsets","all data and factors",[PLT+"hist2d.py:Hist2D.agg",PLT+"hist1d.py:Hist1D.agg",PLT+"hist1d.py:Hist1D._axis_normalizer"],"double counting; order isomorphism of the cuts")

PI="plans/issues_from_plans.py"
P("C241","Listing the issues of a repository (violated when issues are removed meanwhile)",
 "fetch_existing_issue_titles returns all titles, in order and once each, whatever their number, after one request more than there are pages; issues created by others while the pages are read hide none that was there at the start. Violated: an issue removed meanwhile moves the first title of the next page onto a page already read: it is not returned.",
 "all lists of titles, page sizes, concurrent changes","all schedules of another user",[PI+":fetch_existing_issue_titles"],"pages as slices of the list at the time of the request; first page that ends behind a given title")
P("C242","Creating issues from plans, again and again (violated for equal titles)",
 "A session adds issues and changes none: only issues of readable plans whose title no issue had. If the plans have distinct titles, no history of sessions - killed after any file, requests refused, answers lost although the issue was made - ever makes a second issue for a title. One uninterrupted session with answered requests makes an issue for every readable plan, and from then on no session changes anything; an unreadable plan stops nothing. Violated: two plans with the same title become two issues in one session, but only the first one does if the session is killed between them, for ever.",
 "all plans, trackers, histories of sessions, kill points, answers","all histories and crash points",[PI+":main",PI+":create_issue"],"state machine on the tracker; invariant on the number of issues with a title, induction over sessions")
P("C243","Titles of issues (violated for names with a hyphen)",
 "The title of a numbered plan is the words of its directory, capitalised, an en dash, the number and the name; without name, the words of the file name; every title begins with the directory and the dash. Only what follows the last en dash (or, without one, the last hyphen) of a name counts. Violated: a hyphenated word loses its first half ('Non-linear fits' gives 'linear fits'), so names that differ only there give one title.",
 "all directory, file and plan names","all texts",[PI+":infer_issue_title"],"text functions; last piece of a split, trimming")
P("C244","Reading a plan and finding its repository (violated)",
 "A plan '---' front matter '---' text is read back: YAML gets exactly the front matter, name and description are trimmed, the body is the text from the first context heading on, or all of it less leading line breaks. Missing markers are ValueError, front matter that is no mapping AttributeError. Owner and repository are found in git@host:owner/repo and any .../github.com/owner/repo with or without .git. Violated: three dashes inside the front matter end it and the remainder lands in the body; behind a trailing slash '.git' stays in the repository's name.",
 "all texts, parsers, remotes","all texts",[PI+":load_markdown_plan",PI+":infer_owner_repo"],"first occurrence of a marker; YAML as a parameter")

SCP="solarwindpy/core/spacecraft.py"
P("C245","Which frames are spacecraft, and what they keep (violated)",
 "Spacecraft(data, name, frame) accepts exactly the non-empty frames with a time index and each position component once, no component of a complete velocity or Carrington location twice, and a known frame and name in any letter case; errors otherwise are ValueError (empty), KeyError (position incomplete), AssertionError (repeated component, no time index), then NotImplementedError. It keeps position, and velocity and Carrington location where complete, at the same times; other columns and the order of columns do not matter; a spacecraft made from the data of one is the same. Violated: a velocity or location lacking one component is dropped without notice and reading it is a KeyError.",
 "all frames, column orders, names","all column lists",[SCP+":Spacecraft.__init__",SCP+":Spacecraft.set_data",SCP+":Spacecraft.position",SCP+":Spacecraft.velocity",SCP+":Spacecraft.carrington"],"frames as labelled columns; counting labels")
P("C246","Histories of setters on a spacecraft",
 "After any history of set_data and set_frame_name on a spacecraft, accepted or refused, a refused call has changed nothing, the data are those of the last accepted set_data, frame and name are known ones in capitals, the position can be read and distance2sun gives for every time the distance of that position in the present frame.",
 "all histories of calls with all arguments","all histories",[SCP+":Spacecraft.set_data",SCP+":Spacecraft.set_frame_name",SCP+":Spacecraft.distance2sun"],"state machine; invariant by induction over the calls")

P("C247","The conda recipe, written, updated and read back (python always differs)",
 "The recipe written for a project gives back, through extract_feedstock_deps, exactly python and the project's dependencies, trimmed and in order. Updating its version and hash gives the recipe written anew for them, so the dependencies survive every update. Compared with the project, every dependency is found unchanged - violated for python, which is always listed as only in the recipe.",
 "all names, versions, hashes and dependencies that are one line of text","all texts",["scripts/update_conda_recipe.py:render_meta","scripts/update_conda_recipe.py:main","scripts/compare_feedstock_deps.py:extract_feedstock_deps","scripts/update_conda_feedstock.py"],"recipes as lists of lines; first match of the reader's pattern")
P("C248","Reading the dependencies of pyproject.toml (violated for extras)",
 "extract_pyproject_deps returns the quoted items of the first 'dependencies = [...]', trimmed, blank ones dropped, in order; a file without the word has none. Violated: an item with extras, name[extra], ends the list: neither it nor what follows is read.",
 "all texts","all texts",["scripts/compare_feedstock_deps.py:extract_pyproject_deps"],"first occurrence; quoted pieces by induction")
P("C249","Provenance of a release (violated)",
 "A tag is confirmed iff git lists it, resolves it and answers, and, if master is required and git lists branches that contain it, the listing mentions master; the commit returned is what git resolved. A GitHub release is rejected iff it could be read and the digest of its first archive is not the hash. Violated: a branch whose name only contains 'master', no branch at all and a listing that failed count as master; a null digest, an unreadable release and further archives count as equal.",
 "all answers of git and gh","all answers",["scripts/update_conda_feedstock.py:CondaFeedstockUpdater.verify_git_tag_provenance","scripts/update_conda_feedstock.py:CondaFeedstockUpdater.verify_github_release_integrity"],"answers of commands as inputs; the word survives stripping and splitting")
P("C250","Verdict of the documentation checks (violated)",
 "A file passes iff it can be imported and none of its doctests fails; its counts are the sums over its doctests. The CI check exits with 0 iff every existing Python file passes; other files never matter. doctest_runner exits with 0 iff no doctest of an importable file fails. Violated: files that cannot be imported do not make doctest_runner fail; a targeted run counts files of both groups (fitfunctions/core/...) twice and skips all that are in neither.",
 "all files, outcomes of imports and doctests","all outcomes",["scripts/simple_doc_validation/doctest_runner.py:SimpleDocTestRunner","scripts/simple_doc_validation/ci_integration.py:CIIntegration"],"folds over the files; sums")
P("C251","Adding :no-index: to the API pages (violated for partly marked pages)",
 "On a page as sphinx-apidoc writes it, each automodule block gets one line :no-index: behind its options and nothing else changes; a second run changes nothing; pages without automodule and the overview page are left alone. Violated: a page with :no-index: anywhere gets none for its other blocks.",
 "all pages, numbers of blocks, texts between them","all texts and repetitions",["docs/add_no_index.py:add_no_index_to_modules"],"substitution as a scan; induction over the blocks")

P("C252","Turbulence with rounding (violated for the energy budget)",
 "With every operation rounded (to nearest or toward zero) and sums taken in any order, energies and energy ratios are nonnegative and sigma_c and sigma_r lie in [-1, 1]; reversing b exchanges e_plus and e_minus and negates sigma_c and cross_helicity bit by bit; v = b gives sigma_c exactly 1 and sigma_r exactly 0. To nearest even, a change of unit by a power of two changes no digit of sigma_c and sigma_r, and energies are exact up to three relative errors of 2^-53. Violated: e_plus + e_minus need not equal twice the total energy.",
 "all measured fluctuations, roundings, orders of summation; no overflow or underflow","all reals and all summation trees",["solarwindpy/core/alfvenic_turbulence.py:AlfvenicTurbulence.sigma_c","solarwindpy/core/alfvenic_turbulence.py:AlfvenicTurbulence.sigma_r","solarwindpy/core/alfvenic_turbulence.py:AlfvenicTurbulence.cross_helicity","solarwindpy/core/alfvenic_turbulence.py:AlfvenicTurbulence.e_plus","solarwindpy/core/alfvenic_turbulence.py:AlfvenicTurbulence.e_minus"],"rounding as a monotone odd idempotent function, nearest-even as an instance; induction over summation trees")
P("C253","Vectors with rounding (violated for cos_theta)",
 "With rounding to nearest even in any precision and any order of summation, no component exceeds the magnitude, which is zero for the zero vector only and the absolute value for a vector along an axis; components of the unit vector lie in [-1, 1]; rho is at most mag; reversing a vector keeps mag and negates uv and cos_theta bit by bit, cos_theta is symmetric; scaling by a power of two scales mag and keeps uv; mag is exact up to three relative errors of 2^-53. Violated: cos_theta of a vector with itself can exceed 1, as for (3, 4, 12).",
 "all components that are numbers of the format, all precisions and orders; no overflow or underflow","all numbers and summation trees",["solarwindpy/core/vector.py:Vector.mag","solarwindpy/core/vector.py:Vector.rho","solarwindpy/core/vector.py:Vector.unit_vector","solarwindpy/core/vector.py:Vector.cos_theta"],"the root of a rounded square is the number; induction over summation trees")
P("C254","Densities and flows with rounding (violated for the order)",
 "With every operation rounded, the total density is at least every species' density, zero only if all are, grows with each of them, and of k species is exact up to k-1 relative errors of 2^-53, whatever the order of summation; of two species it does not depend on the order. The differential flow of exchanged species is exactly the reversed flow, and zero for equal velocities only. Violated: the total of three species can depend on the order.",
 "all nonnegative densities, velocities, numbers of species, orders; no overflow or underflow","all numbers and summation trees",["solarwindpy/core/plasma.py:Plasma.number_density","solarwindpy/core/plasma.py:Plasma.dv"],"induction over summation trees")
P("C255","Normalisations and fit qualities with rounding",
 "With every operation rounded, feature scaling gives exactly 0 at the minimum, exactly 1 at the maximum, and keeps range and order; scaling by a positive maximum gives at most 1 and exactly 1 at the maximum; positions of a distribution function rise from exactly 0 to exactly 1; rsq is at most 1, exactly 1 for a fit through every used point and exactly 0 for a fit by the mean; chisq_dof is nonnegative and exactly 0 for a fit through every point.",
 "all data, fits, weights, orders of summation; no overflow or underflow","all numbers and summation trees",["solarwindpy/solar_activity/sunspot_number/sidc.py:SIDC.run_normalization",PLT+"hist2d.py:Hist2D._axis_normalizer",PLT+"hist1d.py:Hist1D.construct_cdf",FF+"core.py:FitFunction.rsq",FF+"core.py:FitFunction._calc_popt_pcov_psigma_chisq"],"monotone rounding that keeps 0 and 1")
P("C256","Adaptive mesh with rounded midpoints",
 "With cell midpoints and the last edge computed in floating point of any precision (eight digits or more for the edge), the cells still partition the initial region after any number of steps, no cell of a finished mesh holds more than min_per_bin data, and mesh generation ends iff at no point of the region more than min_per_bin data coincide - the loss of precision in tiny cells never makes it run forever. The last edge lies beyond every edge.",
 "all data and edges that are numbers of the format, all limits, all precisions; no overflow or underflow","all data and unbounded numbers of steps",[PLT+"spiral.py:SpiralMesh.generate_mesh",PLT+"spiral.py:SpiralMesh.process_one_spiral_step",PLT+"spiral.py:SpiralPlot2D.calc_initial_bins"],"a cell that holds two numbers a < b loses at least b - a of its width with every halving (nearest rounding), or starts at a")
P("C257","Accuracy of plasma quantities with rounding",
 "With every operation rounded to nearest, in the order of the code, and pandas' compensated sums, the quantities of N species with positive density and thermal speed are positive and, up to at most so many relative errors of 2^-53, the exact values for the same data: mass density N, pressure 7N+1, temperature 7N, beta 7N+13, sound speed 4N+9/2, and, with powers accurate to j errors, Alfven speed N/2+j+8, entropy 7N+gamma(N+1)+j+4, anisotropy 14N+2j+3. In double precision a errors are a relative error of at most 1.2e-16 a.",
 "all positive data, constants and units, numbers of species, precisions of six digits or more, orders of summation; no overflow or underflow","all reals and all numbers of species",["solarwindpy/core/ions.py:Ion.pth","solarwindpy/core/ions.py:Ion.temperature","solarwindpy/core/plasma.py:Plasma.mass_density","solarwindpy/core/plasma.py:Plasma.pth","solarwindpy/core/plasma.py:Plasma.beta","solarwindpy/core/plasma.py:Plasma.sound_speed","solarwindpy/core/plasma.py:Plasma.ca","solarwindpy/core/plasma.py:Plasma.specific_entropy","solarwindpy/core/plasma.py:Plasma.anisotropy"],"errors in logarithms: products add, roots halve, sums take the larger; one rounding is one; invariant of the compensated sum")
P("C258","Centre of mass and drifts with rounding (violated for equal velocities)",
 "With every operation rounded to nearest and pandas' compensated sums, each component of the centre-of-mass velocity of N species is exact up to (8N+3) 1.2e-16 (double precision) of the mean size of that component; reversing all velocities reverses it exactly, for species at rest it is exactly zero, and it is not negative if no species' is; the dynamic pressure is nonnegative. Violated: for species with equal velocities the centre of mass need not have that velocity and the dynamic pressure can be positive, as for two proton beams of density 0.1 and speed 3.",
 "all velocities, positive densities, numbers of species, orders of summation; no overflow or underflow","all reals and all numbers of species",["solarwindpy/core/plasma.py:Plasma.velocity","solarwindpy/core/plasma.py:Plasma.dv","solarwindpy/core/plasma.py:Plasma.pdynamic"],"invariant of the compensated sum: error and compensation are small parts of the sum of sizes")
P("C259","Densities of histograms with rounding",
 "With every operation rounded to nearest, the density of a one-dimensional histogram (axnorm d, linear axis) integrates to 1 up to three relative errors of 2^-53, that of a two-dimensional one (d) up to five, and each column (cd) or row (rd) with data up to three, whatever the number of bins and data; a bin has density zero iff it is empty; of equally wide bins the one with more data has no smaller density.",
 "all counts below 2^53 with positive total, all increasing edges, all precisions; no overflow or underflow","all numbers of bins and data",[PLT+"hist1d.py:Hist1D._axis_normalizer",PLT+"hist2d.py:Hist2D._axis_normalizer"],"errors in logarithms per bin; sums of nonnegative terms keep the relative error")
P("C260","Shapes of the fit functions with rounding (violated for HingeAtPoint)",
 "With every operation rounded, for any monotone computed logarithm and exponential, the latter nonnegative and exact at 0: a Gaussian is exactly A at its centre, between 0 and A elsewhere and never larger farther away, the normalised and log-normal ones likewise; Exponential is exactly A at 0 and never rises, with a constant it never undershoots it, its distribution function is exactly 0 at 0, never falls and stays between 0 and y0; lines keep the sense of their slope; TwoLine and HingeMin rise to one point and fall after it, HingeMin is exactly 0 at its zeros, nonnegative between and nonpositive outside them, HingeMax mirrors it exactly, and at the hinge both are on the first line up to two relative errors; HingeAtPoint passes its hinge up to four relative errors of the sizes involved; HeavySide has its two levels up to the numbers next to the step. Violated: HingeAtPoint need not pass through its hinge exactly, as for (1,1) with slopes 3 and 1.",
 "all parameters and abscissae, all precisions; no overflow or underflow","all reals",[FF+"gaussians.py:Gaussian.function",FF+"gaussians.py:GaussianNormalized.function",FF+"gaussians.py:GaussianLn.function",FF+"exponentials.py:Exponential.function",FF+"exponentials.py:ExponentialCDF.function",FF+"lines.py:Line.function",FF+"hinge.py:TwoLine.function",FF+"hinge.py:HingeMin.function",FF+"hinge.py:HingeMax.function",FF+"hinge.py:HingeAtPoint.function",FF+"heaviside.py:HeavySide.function"],"monotone rounding carries the order through each operation; the violation by exact evaluation")
P("C261","Drawn borders of a 2-D histogram (violated for smoothing options)",
 "plot_edges without smoothing draws, for every column with a displayed cell and from left to right, the centres of its highest and of its lowest displayed cell (10 to the centre on logarithmic axes); the lower curve is nowhere above the upper; limits keep exactly the points within them, ends included; if nothing is displayed ValueError is raised. Violated: window_length and polyorder given in sg_kwargs smooth the top border only, the bottom one and every later call with the same dictionary use the defaults; with fewer than 50 columns with data smoothing (the default) raises ValueError whatever options are given, and with default options exactly then.",
 "all histograms, bin edges, limits, smoothing options, filters","all numbers of columns and all values",[PLT+"hist2d.py:Hist2D.get_border",PLT+"hist2d.py:Hist2D._plot_one_edge",PLT+"hist2d.py:Hist2D.plot_edges"],"the borders are maps over the columns with data; the caller's dictionary is state threaded through the two calls")
P("C262","Options of drawn 1-D histograms (violated)",
 "Hist1D.make_plot with a window and two aggregations draws the line with the caller's colour, style and label, its edges if asked for, and the band value minus to plus uncertainty with its own options or else those of the line; without a window one curve with error bars (horizontal when transposed), in steps unless told otherwise; all other options are handed on. Violated: a window when transposed or with one aggregation is a TypeError; drawstyle is ignored with a window; the window's options are honoured by the first plot only when the dictionary is used again; the abbreviation ds is a TypeError without a window.",
 "all data, options and window dictionaries, all histories of two plots with the same dictionary","all dictionaries",[PLT+"hist1d.py:Hist1D.make_plot"],"dictionaries as lists; matplotlib's alias resolution; the calls made are computed by cases")
P("C263","Options of the drawn 1-D parameters (violated)",
 "TrendFit.plot_all_popt_1d with a window draws the line with the caller's options and the band parameter minus to plus uncertainty, in its own or the line's colour, and leaves the window's dictionary alone; without a window error bars, dashed by default. Violated: without a window any line style, by either name, is a TypeError; wkey=None, documented to disable error bars, is a NotImplementedError unless the window is disabled too.",
 "all data and options","all dictionaries",[FF+"trend_fits.py:TrendFit.plot_all_popt_1d"],"as C262")
P("C264","Options of the plotted observations of a fit (violated)",
 "FFPlot.plot_raw and plot_used with a window draw the line through all the data, the band value minus to plus weight (the values themselves without weights) and, if edge_kwargs is given, its two borders; each takes the caller's options completed by the defaults, the band the line's colour unless it has its own, the borders the band's. Without a window one curve with error bars. Abbreviated names have the effect of the full ones, two names of one option are a TypeError with nothing drawn, markevery=None means the automatic spacing, and the caller's window dictionary is never changed. Violated: the abbreviation c in edge_kwargs is a TypeError, raised after line and band are drawn.",
 "all data with or without weights and all option dictionaries","all dictionaries",[FF+"plots.py:FFPlot.plot_raw",FF+"plots.py:FFPlot.plot_used"],"as C262; a predicate says that options are the caller's completed by defaults")
P("C265","The combined plot of data and fit (violated)",
 "FFPlot.plot_raw_used_fit draws the raw observations, the used observations and the fit in this order, adds the text box if asked for, gives the shared draw style (steps-mid unless given) to the observations and not to the fit, and hands each group of options on. Violated: a draw style for the raw observations alone, by either name, is a TypeError with nothing drawn, and one for the used observations alone is a TypeError that leaves a plot with only the raw observations.",
 "all data, draw styles and option dictionaries","all dictionaries",[FF+"plots.py:FFPlot.plot_raw_used_fit",FF+"plots.py:FFPlot.plot_fit"],"composition of the three plots of C264")
P("C266","Levels, labels and colours of contour plots (violated)",
 "Contour plots draw the caller's levels (or the defaults of the normalisation) and label exactly those, without the highest if skip_max_clbl; no labels unless asked for. Hist2D colours them by the caller's norm, by tenths for row or column normalisation, else by steps at the levels. Label options are the caller's or the defaults, and other options are handed on. Violated: with matplotlib's own levels (no levels given, and no normalisation or a density by rows or columns; always so for the adaptive mesh) skip_max_clbl is ignored and the highest is labelled; a second plot with the same clabel_kwargs ignores inline, inline_spacing and fmt.",
 "all levels, normalisations, norms, label options and histories of two plots","all lists of levels and dictionaries",[PLT+"hist2d.py:Hist2D.plot_contours",PLT+"spiral.py:SpiralPlot2D.plot_contours"],"lists of levels; matplotlib's own levels are arbitrary; membership characterised for increasing levels")
P("C267","Text of contour labels (violated)",
 "The label of a contour reads as its level: true for every level printed without exponent and for exponents not ending in 0. Violated: a level whose printed exponent ends in 0 (1e-10, 1e+20) loses the zeros and its label (1e-1, 1e+2) reads as a different number, in both plots; and Hist2D labels whole levels '1.' where it says '1' (the adaptive mesh writes '1').",
 "all printed numbers: any digits before and after the point, any exponent","all texts",[PLT+"hist2d.py:Hist2D.plot_contours",PLT+"spiral.py:SpiralPlot2D.plot_contours"],"a separate reader of decimal numbers; the stripped text is read back")
P("C268","Data behind the contours of the adaptive mesh",
 "SpiralPlot2D.plot_contours interpolates from exactly the cells with a finite value, each at its centre, which lies in the drawn cell also on logarithmic axes; the grid runs in equal steps from the lowest to the highest of these points; an unknown method, a mesh that does not match the values, and values that are all missing are ValueErrors.",
 "all meshes, values, scales and resolutions","all meshes",[PLT+"spiral.py:SpiralPlot2D.plot_contours",PLT+"spiral.py:SpiralPlot2D._interpolate_to_grid",PLT+"spiral.py:SpiralPlot2D._interpolate_with_rbf"],"membership in the list of points by cell number; linspace computed")
P("C269","Joint plots of a 2-D histogram and its marginals (violated)",
 "make_joint_h2_h1_plot draws the 2-D histogram, its colour bar (on the caller's axes and with the caller's orientation, else horizontally below it), the histogram of x above it and that of y beside it with exchanged axes, both with the caller's options. Violated: ax in cbar_kwargs, accepted by the 2-D plot alone, is a ValueError that leaves a figure without marginals; plot_window for the marginals is always a TypeError; the caller's cbar_kwargs loses cax and orientation, so a second joint plot ignores them.",
 "all marginals, option dictionaries and histories of two plots","all dictionaries",[PLT+"hist2d.py:Hist2D.make_joint_h2_h1_plot",PLT+"hist2d.py:Hist2D.make_plot"],"composition of the 1-D plots of C262; dictionaries as threaded state")
P("C270","Plots of a trend with its residuals (violated)",
 "TrendFit.plot_trend_fit_resid draws raw and used parameters in the given style (plain by default), the fit above them, the text box and both kinds of residuals in percent; plot_trend_and_resid_on_ffuncs adds the 1-D parameters last, plot_1d_popt_and_trend draws them first and the fit in limegreen unless given. Violated: every other keyword (options for the raw data, the fit, the residuals or the figure) is silently ignored by plot_trend_fit_resid, while ax in trend_kwargs is a TypeError with nothing drawn.",
 "all data and option dictionaries","all dictionaries",[FF+"trend_fits.py:TrendFit.plot_trend_fit_resid",FF+"trend_fits.py:TrendFit.plot_trend_and_resid_on_ffuncs",FF+"trend_fits.py:TrendFit.plot_1d_popt_and_trend"],"composition of the plots of C263 to C265")
P("C271","Shapes of the remaining fit functions with rounding",
 "With every operation rounded, for any computed power that is monotone in its base and exact at 1 and any monotone exponential: power laws are exactly A at 1, never negative and keep the sense of their exponent, with a constant they never undershoot it, off-centre they are exactly 0 at the centre; Moyal lies between 0 and A times the computed e-1 and is symmetric; a Gaussian on a step is the Gaussian plus exactly y0 right and the rounded y1+y0 left of it, however close; a cut Gaussian is exactly 0 left and exactly the Gaussian at and right of the step; with a plateau exactly y1 left and the Gaussian right of it (at the step both are added); HingeSaturation with a flat plateau is exactly 0 at its zero, never above the plateau, never falling and at the hinge on it up to two relative errors; with a sloping one, and Saturation for any computed tangent, the hinge is passed up to four relative errors of the sizes involved.",
 "all parameters and abscissae, all precisions; no overflow or underflow","all reals",[FF+"power_laws.py:PowerLaw.function",FF+"power_laws.py:PowerLawPlusC.function",FF+"power_laws.py:PowerLawOffCenter.function",FF+"moyal.py:Moyal.function",FF+"composite.py:GaussianPlusHeavySide.function",FF+"composite.py:GaussianTimesHeavySide.function",FF+"composite.py:GaussianTimesHeavySidePlusHeavySide.function",FF+"hinge.py:HingeSaturation.function",FF+"hinge.py:Saturation.function"],"as C260")
P("C272","Distance to the Sun with rounding",
 "With every operation rounded to nearest and squares added in any order, distance2sun of a heliocentric position is exact up to four relative errors of 2^-53, and of a geocentric position less than half way to the Sun, so of every satellite near the Earth, up to five; the centre of the Earth is exactly one astronomical unit away; a heliocentric distance is zero at the Sun's centre only; reflected positions have the same distance to the last digit, and a length unit scaled by a power of two scales the distance exactly.",
 "all positions, constants, precisions and orders of summation","all reals",["solarwindpy/core/spacecraft.py:Spacecraft.distance2sun"],"component errors carried to the length; C253")
P("C273","A 2-D histogram with contours on top (violated)",
 "plot_hist_with_contours draws the histogram, contours with the same norm and colour map in the caller's styles, labels if asked for (exactly the drawn levels, without the highest if skip_max_clbl), and the colour bar on the named axes or those of the plot, in this order. The norm is the caller's, else by tenths for row or column normalisation and logarithmic for densities. Label options leave the caller's dictionary only if labels are drawn. Violated: limit_color_norm with counts or the total normalisation and no norm is an AttributeError with nothing drawn; cmap or norm in contour_kwargs is a TypeError that leaves the bare histogram; contour_kwargs loses linestyles, so a second plot ignores them; with a number of levels, which the documentation allows, the highest is labelled although it should be skipped, and labelling all is a TypeError without a colour bar.",
 "all normalisations, norms, levels, option dictionaries and histories of two plots","all dictionaries and levels",[PLT+"hist2d.py:Hist2D.plot_hist_with_contours",PLT+"hist2d.py:Hist2D._get_contour_levels",PLT+"hist2d.py:Hist2D._limit_color_norm"],"events computed by cases; the caller's dictionaries are threaded state")
P("C274","Options of contour plots without effect (violated)",
 "Hist2D.plot_contours labels lists of levels as C266 says. Violated: limit_color_norm, documented, has no effect whatever; a number of levels is a TypeError unless there is a norm (given, or by row or column normalisation), and then its labels always include the highest and cannot be asked for with skip_max_clbl=False.",
 "all arguments","all arguments",[PLT+"hist2d.py:Hist2D.plot_contours"],"cases")
P("C275","Docstring coverage: what is counted (violated)",
 "docstring_coverage counts a parsed file once, every class once and every def or async def once, at any depth, as a method or as a function, and as documented if its docstring is not empty; in files with no class inside a class the methods are exactly the functions defined inside a class, under the innermost one. Listed as missing are exactly the file, the classes, the methods (private ones except __init__ left out) and the functions (private ones left out) without docstring. Violated: after a class inside a class, the remaining methods of the outer class are taken for functions and listed without the class; properties are never counted.",
 "all syntax trees","all trees",["scripts/docstring_coverage.py:DocstringCoverageAnalyzer.visit_Module","scripts/docstring_coverage.py:DocstringCoverageAnalyzer.visit_ClassDef","scripts/docstring_coverage.py:DocstringCoverageAnalyzer.visit_FunctionDef","scripts/docstring_coverage.py:DocstringCoverageAnalyzer.analyze_properties"],"the tree flattened to a sequence of class boundaries and functions; mutual induction over trees, then from the end of the sequence")
P("C276","Docstring coverage: the figures of the report (violated)",
 "The coverage of a file lies between 0 and 100 and is 100 exactly if the file and every class and function in it has a docstring. The report has one entry for each file that parses and is not named test_..., with totals over exactly these files; each entry is complete or in exactly one of the lists of high (below 50), medium (from 50) and low (from 80) priority. Violated: private functions without docstring lower the coverage but are not listed, so a file can stay incomplete with nothing to add; files that do not parse do not count at all.",
 "all packages","all packages",["scripts/docstring_coverage.py:generate_coverage_report","scripts/docstring_coverage.py:analyze_module"],"counts of C275; rational arithmetic")
P("C277","Docstring baseline (violated)",
 "The baseline puts every docstring into exactly one format (blank, NumPy, Google, informal), so the formats add up to the documented objects; the four printed shares lie between 0 and 100. Violated: each method is counted twice, as a function and as a method, in the code objects, the documented ones and the missing docstrings; a docstring without a line that starts with four blanks and a dash - every regular one, as the indentation is removed before - never counts as NumPy; a package in which no class has a method ends in a ZeroDivisionError, and only such a package.",
 "all syntax trees, docstrings and packages","all trees",["scripts/docstring_baseline_analysis.py:DocstringFormatAnalyzer.analyze_docstring_format","scripts/docstring_baseline_analysis.py:DocstringFormatAnalyzer.visit_ClassDef","scripts/docstring_baseline_analysis.py:DocstringFormatAnalyzer.visit_FunctionDef","scripts/docstring_baseline_analysis.py:main"],"counters by mutual induction over trees; substring search as infix")
P("C278","Docstring validation (violated)",
 "A file without issues parses and has docstrings for itself, for all its classes, each with an Examples section, and for all functions except private ones (__init__ is not private). A component without docstring has exactly the issue that it is missing; functions and methods with fewer than five lines have none, longer ones lack examples exactly if there are more than 15 lines or many parameters and no Examples section, and units or equations exactly if their keywords occur and the patterns do not. A section is its name followed by a line of dashes. Violated: the required sections (Parameters, Returns, Attributes) are never checked, for any package.",
 "all syntax trees, docstrings, packages and answers of the unit, equation and parameter patterns","all trees and texts",["scripts/validate_docstrings.py:SolarWindPyDocstringValidator.validate_docstring_structure","scripts/validate_docstrings.py:SolarWindPyDocstringValidator._validate_scientific_requirements","scripts/validate_docstrings.py:SolarWindPyDocstringValidator._has_section","scripts/validate_docstrings.py:DocstringASTVisitor","scripts/validate_docstrings.py:validate_file"],"as C275; the section pattern as a decomposition of the text")
P("C279","Anisotropic Alfven speed with rounding",
 "With every operation rounded, afsq is exactly 1 and caani equals ca to the last bit for species with equal parallel and perpendicular thermal speeds; afsq never falls with the perpendicular and never rises with the parallel pressure, is at least (at most) 1 if the perpendicular pressure is at least (at most) the parallel one - for one species: thermal speed - and caani is then at least (at most) ca; reversing the field changes no bit. Rounded to nearest, afsq of N species is 1 + mu0 (p_per - p_par)/B^2 up to 7N+11 relative errors of the sum of the sizes of the three terms: (7N+11) 1.2e-16 in double precision.",
 "all data, constants, numbers of species, orders of summation; accuracy for positive densities and thermal speeds; no overflow or underflow","all reals",["solarwindpy/core/plasma.py:Plasma.afsq","solarwindpy/core/plasma.py:Plasma.caani"],"a rounding is a factor; errors counted as in C257")
P("C280","Heat flux with rounding (violated for species that move together)",
 "With every operation rounded and numpy's cube odd and not negative on positive numbers, reversing all velocities, or the field, reverses heat_flux of every species and of their sum to the last bit; without rounding it is that of C26; species at rest have none; a species' heat flux is never against its parallel drift from the centre of mass. Violated: two proton beams of density 0.1 that both move with 3 along the field have a negative heat flux, each and together, where the exact one is zero.",
 "all data, constants, numbers of species, orders of summation; no overflow or underflow","all reals",["solarwindpy/core/plasma.py:Plasma.heat_flux","solarwindpy/core/vector.py:Vector.project"],"oddness of every operation; C258")
P("C281","Statistics of an adaptive mesh",
 "calculate_bin_number succeeds for every mesh with cells, whatever the data and the order of its parallel loop, and never reports unvisited or repeatedly visited bins nor raises for cells without value; without cells it is a ValueError. The frequencies it reports are the numbers of data in the cells, the fill values exactly the data in no cell (reported if there are any), and together they are all data; the largest population is that of a cell and none is larger, and the empty bins are the cells without data. For a generated mesh the largest population is at most min_per_bin and the fill values are the data outside the initial region.",
 "all meshes of cells that do not overlap, data, thread schedules","all data and schedules",[PLT+"spiral.py:SpiralMesh.calculate_bin_number",PLT+"spiral.py:calculate_bin_number_with_numba"],"double counting of data and cells; C79, C80")
P("C282","Stability bins with rounding",
 "With every operation rounded to nearest (the table of coefficients too), each row with non-negative or missing beta still gets exactly one bin and no error, chosen by the computed thresholds as in C60, with bins >= 3 only above and <= 1 only below anisotropy 1. Whatever is unstable stays so at every larger beta and every anisotropy farther out, so along beta the bin never comes closer to 'Stable' and never changes side. Above the pole a computed threshold differs from the exact one of the coefficients as read by at most b+j+3 rounding errors of 1 + |a| (beta-c)^-b, j being the error of numpy's power; rows farther from the threshold than that are classified as without rounding. Without rounding the bin is that of C60.",
 "all growth rates, beta >= 0 (missing, infinite), anisotropies, precisions of at least 3 bits; order for powers that do not decrease in the base, accuracy for powers with j relative errors; no overflow or underflow; pandas < 2","all reals",["solarwindpy/instabilities/verscharen2016.py:beta_ani_inst","solarwindpy/instabilities/verscharen2016.py:StabilityCondition.calculate_stability_criteria"],"monotone rounding carries the order through the formula; a rounding is a factor; errors counted as in C257")
P("C283","Coulomb logarithm with rounding",
 "With every operation rounded, exchanging the two species changes no bit of lnlambda. Rounded to nearest and with np.log within one rounding error, lnlambda of two like-charged species is within 165 units of rounding (2e-14 in double precision) of the exact one, if that is between -10 and 70. Without rounding it is that of C22.",
 "all data with positive densities and thermal speeds, constants, precisions of at least 10 bits; no overflow or underflow","all reals",["solarwindpy/core/plasma.py:Plasma.lnlambda"],"commutativity of rounded sums and products; errors counted as in C257")
P("C284","Collision rate of slow drifts with rounding (violated)",
 "nuc of two species should tend to a positive limit as their drift gets small. With every operation rounded it does not: whenever the computed drift is positive and at most 2^-28 of the combined thermal speed, the difference of the error function and its tangent is zero or at least the last place of the drift, so the longitudinal diffusion rate, exactly between 0.7 and 1.13, is computed as 0 or at least 7 in absolute value - the collision rate is zero, six times too large or negative. Without rounding it is that of C22.",
 "all data with such a drift and non-negative Coulomb logarithm, constants, orders of summation, library functions with up to six percent error; double precision; no overflow or underflow","all reals",["solarwindpy/core/plasma.py:Plasma.nuc"],"numbers of the format above x are multiples of its last place; bounds of the exponential under the integral")
P("C285","Estimated electrons with rounding (violated for protons alone)",
 "With every operation rounded to nearest, estimate_electrons of N ion species with positive charge refuses the same plasmas as without rounding; the density has at most N relative errors, a component of the velocity is within (8N+3) 1.2e-16 of the charge-weighted mean size of that component, the thermal speed has at most (N+j)/2 + 3 errors (j: error of numpy's power). A row is masked exactly if it has no ions. Reversing all velocities reverses that of the electrons to the last bit, ions at rest have electrons at rest, electrons move backward only if an ion does, and densities in a unit that is a power of two as large change no bit of velocity and thermal speed. Without rounding it is the estimate of C25. Violated: electrons of a plasma of protons alone need not move with them - protons of density 0.1 and velocity 3 get electrons of density 0.1 and velocity 3 + 2^-51.",
 "all data with positive (masking and sign: non-negative) densities, constants, numbers of species, orders of summation, precisions of at least 6 bits; no overflow or underflow","all reals",["solarwindpy/core/plasma.py:Plasma.estimate_electrons"],"charges take the place of masses in the centre of mass of C258; errors counted as in C257")
P("C286","Projections with rounding (violated for parallel vectors)",
 "With every operation rounded to nearest, in any order of summation, project of a vector v on a non-zero b gives a parallel component within 8 and a perpendicular one within 20 units of rounding (2^-53 in double precision) of the length of v; the perpendicular one is never negative. Reversing v or b negates the parallel and keeps the perpendicular component to the last bit; scaling v by a power of two scales both, scaling b changes nothing. If b points along an axis, the parallel component is the component of v and the perpendicular one the magnitude of the other two, to the last bit. Without rounding both are those of the exact model. Violated: a vector need not be parallel to itself - (2, 3, 6) on itself gives less than 7 and a positive perpendicular component.",
 "all vectors, orders of summation, precisions of at least 6 bits (axis: components that are numbers of the format); no overflow or underflow","all reals",["solarwindpy/core/vector.py:Vector.project"],"errors of unit vector, products and signed sums as multiples of the length; triangle inequality for the rest")
P("C287","Ratio of distribution functions with rounding",
 "With every operation rounded, reversing all velocities, or the field, changes no bit of vdf_ratio; it is never below the logarithm of the coefficient, equal to it for populations of the same mass per charge that move together, and equal to the drift term for populations of equal density and thermal speeds; it never falls with the density of the beam. In units of density, or of speed, that are a power of two as large no bit changes. Rounded to nearest, the coefficient has at most seven relative errors. Without rounding the ratio is that of C24, for any positive charges.",
 "all data, constants, orders of summation, logarithms that return numbers of the format (order: that do not decrease; equal populations: with log 1 = 0); coefficient for positive densities and thermal speeds; no overflow or underflow","all reals",["solarwindpy/core/plasma.py:Plasma.vdf_ratio"],"oddness and monotonicity of rounding through C286; errors counted as in C257")
P("C288","Dynamic import tests do not disturb each other",
 "test_dynamic_imports.py tests every module as if it were the first: its result is that of the import from the state at the start, the tests leave the loaded modules of the package as they were, and the circular imports listed are exactly the modules whose import fails with an ImportError that says so. Each import order and each pair of modules is tested as in a fresh interpreter. The orders are alphabetical, reverse and base modules first, each with every module, and at most ten of a shuffled copy; the errors of an order are those of its modules with the ones before loaded. The pairs are those of the first six key modules, in order: fifteen, or all of fewer modules. Successes and failures add up to the tests, and errors to the failures, whatever imports do.",
 "all packages, lists of modules, loaded modules, shuffles, interpreters (counts: any; the rest: an import unloads nothing and depends on the loaded modules of the package only)","all histories of imports",[SC+"test_dynamic_imports.py:DynamicImportTester.test_individual_import",SC+"test_dynamic_imports.py:DynamicImportTester.test_import_order_variations",SC+"test_dynamic_imports.py:DynamicImportTester.test_cross_imports"],"interpreter as parameter; induction over the tests, invariant: same modules of the package loaded")
P("C289","Verdict of the dynamic import tests (violated)",
 "The modules tested are the files below the package outside directories tests and __pycache__ and not called test_..., in alphabetical order, named by package, directories and file. 'No circular imports detected' is reported exactly if no module on its own fails as circular. Violated: circular imports found for pairs or orders of modules do not count, so a package with one is reported clean; a name that is merely missing counts as circular; in a checkout below a directory tests no module is tested and the report is clean; modules of other packages whose names begin with that of the package are unloaded; given the package directory as argument the program stops with an AttributeError.",
 "all packages, files, interpreters, shuffles","all inputs",[SC+"test_dynamic_imports.py:DynamicImportTester.run_comprehensive_test",SC+"test_dynamic_imports.py:DynamicImportTester.discover_modules",SC+"test_dynamic_imports.py:main"],"from C288; a package with one order-dependent import as counterexample")
P("C290","Settings of the conda automation (violated)",
 "After conda_config is imported, an integer in CONDA_AUTOMATION_TIMEOUT is the timeout of the PyPI check and of GitHub, anything else leaves 10 and 15 seconds; dry runs are the default exactly for true, 1 or yes in any case; reading the environment again changes nothing; automation is enabled and pre-releases are skipped. Different packages have different feedstocks, different releases different archives and JSON addresses (names and versions without a slash); an empty version means the package, an empty name has no archive. Violated: the timeout in PYPI_CONFIG stays 10 seconds whatever the environment, as do those of downloads and availability; CONDA_AUTOMATION_GITHUB_TOKEN, though documented, has no effect; any value of CONDA_AUTOMATION_DEBUG, also 0 or false, turns debugging on; the archive update_conda_feedstock.py downloads for its hash is the one these settings name only for packages whose name does not begin with a capital letter.",
 "all environments, package names, versions, any int()","all inputs",[SC+"conda_config.py:load_env_config",SC+"conda_config.py:get_pypi_source_url",SC+"conda_config.py:get_pypi_json_url",SC+"conda_config.py:get_feedstock_repo",SC+"update_conda_feedstock.py:CondaFeedstockUpdater.calculate_sha256"],"case analysis; names without a slash end at the first slash")
P("C291","Reports of the documentation tests (violated)",
 "The text report of a run's summary has its numbers, says PASSED exactly if no test failed and gives the success rate exactly if there was a test; the rate lies between 0 and 100 and is 100 exactly if none of them failed. The text cannot be made (KeyError) exactly for a report with tests and no count of failures. In any report missing counts are 0 and a missing verdict is FAILED. The criteria of a run's results are: examples work iff no test failed, sustainable iff files were processed besides. Violated: the text of the results themselves always says FAILED; the criteria of a run's summary are the same for every run (examples work, not sustainable); a run in which no file could be imported is sustainable and PASSED; without tests the rate of a run is 0.",
 "all runs, files, reports","all inputs",[SC+"simple_doc_validation/validation_utils.py:generate_validation_summary",SC+"simple_doc_validation/validation_utils.py:validate_essential_criteria",SC+"simple_doc_validation/doctest_runner.py:SimpleDocTestRunner.generate_summary"],"case analysis; induction over the files")
P("C292","Accuracy of the ratio of distribution functions",
 "With every operation rounded to nearest, in any order of summation, the drift term of vdf_ratio is within 110 units of rounding (2^-53 in double precision) of the square of S, the sum of the lengths of the two scaled velocities in units of the smaller thermal speed of the core. The ratio is within one unit of its own size plus, times one unit more than 1, the error of the logarithm, 8 units and 110 S^2 units. Without rounding both are the exact ones.",
 "all data with positive densities, thermal speeds and charges and a non-zero field, constants, orders of summation, logarithms, precisions of at least 6 bits; no overflow or underflow","all reals",["solarwindpy/core/plasma.py:Plasma.vdf_ratio"],"errors of scaled velocities, drift, projections (C286) and squares, one after the other")
P("C293","Count of documentation examples (violated)",
 "count_documentation_examples counts, over the readable files not below __pycache__ (hidden Python files left out), the code blocks of reStructuredText files and the prompts of Python files - in each text the greatest number of occurrences that do not overlap - and the files read. The order in which files are found does not matter, and counts of directories without a common file add up. Violated: each mark of an unresolved merge, >>>>>>>, counts as two doctest prompts.",
 "all directories and texts","all texts and orders",[SC+"simple_doc_validation/validation_utils.py:count_documentation_examples"],"greedy search from the left is optimal, by induction over the text; folds over the files as sums")
