{
 "claims": [
  {
   "property": "C01",
   "status": "proved",
   "theorems": [
    "SW.C01_type_error",
    "SW.C01_value_error",
    "SW.C01_canonical",
    "SW.C01_pieces_unique",
    "SW.C01_order_args",
    "SW.C01_order_plus"
   ],
   "note": ""
  },
  {
   "property": "C02",
   "status": "proved",
   "theorems": [
    "SW.C02_empty_name",
    "SW.C02_available",
    "SW.C02_unavailable",
    "SW.C02_malformed",
    "SW.C02_empty_name_accepted"
   ],
   "note": ""
  },
  {
   "property": "C03",
   "status": "proved",
   "theorems": [
    "SW.C03_rejected",
    "SW.C03_accepted",
    "SW.C03_comma_form_fails",
    "SW.C03_ions_refused"
   ],
   "note": ""
  },
  {
   "property": "C04",
   "status": "proved",
   "theorems": [
    "SW.C04_drop_species",
    "SW.C04_drop_invalid",
    "SW.C04_drop_aux",
    "SW.C04_drop_twice"
   ],
   "note": ""
  },
  {
   "property": "C05",
   "status": "proved",
   "theorems": [
    "SW.C05_stored_columns",
    "SW.C05_refused",
    "SW.C05_ion_refused"
   ],
   "note": ""
  },
  {
   "property": "C06",
   "status": "proved",
   "theorems": [
    "SW.C06_scalar_thermal_speed"
   ],
   "note": ""
  },
  {
   "property": "C07",
   "status": "proved",
   "theorems": [
    "SW.C07_missing_component_fabricates"
   ],
   "note": "proves the violation: the code fabricates the stated numbers"
  },
  {
   "property": "C08",
   "status": "proved",
   "theorems": [
    "SW.C08_save_load",
    "SW.C08_save_load_core",
    "SW.C08_spacecraft_needs_identity"
   ],
   "note": ""
  },
  {
   "property": "C09",
   "status": "proved",
   "theorems": [
    "SW.C09_aux_accepted",
    "SW.C09_sc_accepted",
    "SW.C09_atomic",
    "SW.C09_history",
    "SW.C09_errors"
   ],
   "note": ""
  },
  {
   "property": "C10",
   "status": "proved",
   "theorems": [
    "SW.C10_sum",
    "SW.C10_measured",
    "SW.C10_nan",
    "SW.C10_order",
    "SW.C10_columns"
   ],
   "note": ""
  },
  {
   "property": "C11",
   "status": "proved",
   "theorems": [
    "SW.C11_value",
    "SW.C11_protons",
    "SW.C11_order",
    "SW.C11_additive"
   ],
   "note": ""
  },
  {
   "property": "C12",
   "status": "proved",
   "theorems": [
    "SW.C12_momentum",
    "SW.C12_single",
    "SW.C12_order",
    "SW.C12_projected"
   ],
   "note": ""
  },
  {
   "property": "C13",
   "status": "proved",
   "theorems": [
    "SW.C13_general",
    "SW.C13_biased"
   ],
   "note": "proves the violation"
  },
  {
   "property": "C14",
   "status": "proved",
   "theorems": [
    "SW.C14_antisymmetric",
    "SW.C14_additive",
    "SW.C14_self"
   ],
   "note": ""
  },
  {
   "property": "C15",
   "status": "proved",
   "theorems": [
    "SW.C15_additive",
    "SW.C15_value",
    "SW.C15_scalar"
   ],
   "note": ""
  },
  {
   "property": "C16",
   "status": "proved",
   "theorems": [
    "SW.C16_value",
    "SW.C16_additive",
    "SW.C16_speed_ratio",
    "SW.C16_nan",
    "SW.C16_magnetic_pressure"
   ],
   "note": ""
  },
  {
   "property": "C17",
   "status": "proved",
   "theorems": [
    "SW.C17_value",
    "SW.C17_single"
   ],
   "note": ""
  },
  {
   "property": "C18",
   "status": "proved",
   "theorems": [
    "SW.C18_value",
    "SW.C18_zero_iff",
    "SW.C18_galilean",
    "SW.C18_two",
    "SW.C18_single"
   ],
   "note": ""
  },
  {
   "property": "C19",
   "status": "proved",
   "theorems": [
    "SW.C19_three_species_crash",
    "SW.C19_two"
   ],
   "note": "proves the violation"
  },
  {
   "property": "C20",
   "status": "proved",
   "theorems": [
    "SW.C20_alfven",
    "SW.C20_sound",
    "SW.C20_ratio",
    "SW.C20_monotone"
   ],
   "note": ""
  },
  {
   "property": "C21",
   "status": "proved",
   "theorems": [
    "SW.C21_beta",
    "SW.C21_sum",
    "SW.C21_isotropic",
    "SW.C21_caani",
    "SW.C21_pdynamic"
   ],
   "note": ""
  },
  {
   "property": "C22",
   "status": "proved",
   "theorems": [
    "SW.C22_lnlambda_symmetric",
    "SW.C22_balance"
   ],
   "note": "symmetry of nuc follows from the balance theorem's two-species rate conjunct"
  },
  {
   "property": "C23",
   "status": "proved",
   "theorems": [
    "SW.C23_errors",
    "SW.C23_value"
   ],
   "note": ""
  },
  {
   "property": "C24",
   "status": "proved",
   "theorems": [
    "SW.C24_vdf_ratio"
   ],
   "note": ""
  },
  {
   "property": "C25",
   "status": "proved",
   "theorems": [
    "SW.C25_errors",
    "SW.C25_neutral",
    "SW.C25_masked",
    "SW.C25_temperature"
   ],
   "note": ""
  },
  {
   "property": "C26",
   "status": "proved",
   "theorems": [
    "SW.C26_sum",
    "SW.C26_comoving",
    "SW.C26_odd",
    "SW.C26_single"
   ],
   "note": ""
  },
  {
   "property": "C27",
   "status": "proved",
   "theorems": [
    "SW.C27_unusable"
   ],
   "note": "proves the violation"
  },
  {
   "property": "C28",
   "status": "proved",
   "theorems": [
    "SW.C28_value",
    "SW.C28_adiabatic"
   ],
   "note": ""
  },
  {
   "property": "C29",
   "status": "proved",
   "theorems": [
    "SW.C29_mag_rho",
    "SW.C29_mag_nan",
    "SW.C29_longitude"
   ],
   "note": ""
  },
  {
   "property": "C30",
   "status": "proved",
   "theorems": [
    "SW.C30_exchanged",
    "SW.C30_pole"
   ],
   "note": "proves the violation"
  },
  {
   "property": "C31",
   "status": "proved",
   "theorems": [
    "SW.C31_unit_vector",
    "SW.C31_unit_vector_zero",
    "SW.C31_project",
    "SW.C31_scale_invariant"
   ],
   "note": ""
  },
  {
   "property": "C32",
   "status": "proved",
   "theorems": [
    "SW.C32_cos_theta",
    "SW.C32_extreme"
   ],
   "note": ""
  },
  {
   "property": "C33",
   "status": "proved",
   "theorems": [
    "SW.C33_call_fails"
   ],
   "note": "proves the violation"
  },
  {
   "property": "C34",
   "status": "proved",
   "theorems": [
    "SW.C34_frame_name",
    "SW.C34_hci",
    "SW.C34_gse",
    "SW.C34_other_frame"
   ],
   "note": ""
  },
  {
   "property": "C35",
   "status": "proved",
   "theorems": [
    "SW.C35_errors",
    "SW.C35_ratio",
    "SW.C35_hydrogen",
    "SW.C35_reciprocal_chain",
    "SW.C35_hydrogen_agrees",
    "SW.C35_lookup"
   ],
   "note": ""
  },
  {
   "property": "C36",
   "status": "proved",
   "theorems": [
    "SW.C36_identities"
   ],
   "note": ""
  },
  {
   "property": "C37",
   "status": "proved",
   "theorems": [
    "SW.C37_bounded"
   ],
   "note": ""
  },
  {
   "property": "C38",
   "status": "proved",
   "theorems": [
    "SW.C38_species",
    "SW.C38_idempotent"
   ],
   "note": ""
  },
  {
   "property": "C39",
   "status": "proved",
   "theorems": [
    "SW.C39_value",
    "SW.C39_missing",
    "SW.C39_mean_free",
    "SW.C39_shift",
    "SW.C39_constant",
    "SW.C39_local",
    "SW.C39_stored",
    "SW.C39_window",
    "SW.C39_defaults"
   ],
   "note": ""
  },
  {
   "property": "C40",
   "status": "proved",
   "theorems": [
    "SW.C40_selection"
   ],
   "note": ""
  },
  {
   "property": "C41",
   "status": "proved",
   "theorems": [
    "SW.C41_construction",
    "SW.C41_covariance_rejected"
   ],
   "note": ""
  },
  {
   "property": "C42",
   "status": "proved",
   "theorems": [
    "SW.C42_insufficient",
    "SW.C42_returned"
   ],
   "note": ""
  },
  {
   "property": "C43",
   "status": "proved",
   "theorems": [
    "SW.C43_history",
    "SW.C43_failed_call"
   ],
   "note": ""
  },
  {
   "property": "C44",
   "status": "proved",
   "theorems": [
    "SW.C44_residuals",
    "SW.C44_percent",
    "SW.C44_rsq"
   ],
   "note": ""
  },
  {
   "property": "C45",
   "status": "proved",
   "theorems": [
    "SW.C45_unweighted",
    "SW.C45_weighted"
   ],
   "note": ""
  },
  {
   "property": "C46",
   "status": "proved",
   "theorems": [
    "SW.C46_partition",
    "SW.C46_outcome"
   ],
   "note": ""
  },
  {
   "property": "C47",
   "status": "proved",
   "theorems": [
    "SW.C47_parallel_ignores_limits",
    "SW.C47_different_data",
    "SW.C47_agree_without_limits"
   ],
   "note": "proves the violation"
  },
  {
   "property": "C48",
   "status": "proved",
   "theorems": [
    "SW.C48_crash"
   ],
   "note": "proves the violation"
  },
  {
   "property": "C49",
   "status": "proved",
   "theorems": [
    "SW.C49_failures_hidden",
    "SW.C49_popt_crashes"
   ],
   "note": "proves the violation"
  },
  {
   "property": "C50",
   "status": "proved",
   "theorems": [
    "SW.C50_intercepts",
    "SW.C50_horizontal"
   ],
   "note": ""
  },
  {
   "property": "C51",
   "status": "proved",
   "theorems": [
    "SW.C51_wrong_sign"
   ],
   "note": "proves the violation"
  },
  {
   "property": "C52",
   "status": "proved",
   "theorems": [
    "SW.C52_hingeMin",
    "SW.C52_hingeMax",
    "SW.C52_hingeSaturation",
    "SW.C52_hingeAtPoint"
   ],
   "note": ""
  },
  {
   "property": "C53",
   "status": "proved",
   "theorems": [
    "SW.C53_twoLine",
    "SW.C53_saturation",
    "SW.C53_angles_agree"
   ],
   "note": ""
  },
  {
   "property": "C54",
   "status": "proved",
   "theorems": [
    "SW.C54_heavySide",
    "SW.C54_composite"
   ],
   "note": ""
  },
  {
   "property": "C55",
   "status": "proved",
   "theorems": [
    "SW.C55_gaussian",
    "SW.C55_normalized",
    "SW.C55_ln_shape",
    "SW.C55_normal_parameters"
   ],
   "note": ""
  },
  {
   "property": "C56",
   "status": "proved",
   "theorems": [
    "SW.C56_cdf",
    "SW.C56_forms"
   ],
   "note": ""
  },
  {
   "property": "C57",
   "status": "proved",
   "theorems": [
    "SW.Tex.C57_escapes",
    "SW.Tex.C57_annotation_balanced",
    "SW.Tex.C57_additional_list",
    "SW.Tex.C57_string_unchecked"
   ],
   "note": "the unchecked string is proved as a violation"
  },
  {
   "property": "C58",
   "status": "proved",
   "theorems": [
    "SW.Tex.C58_popt",
    "SW.Tex.C58_history"
   ],
   "note": ""
  },
  {
   "property": "C59",
   "status": "proved",
   "theorems": [
    "SW.Swap.C59_exact_swap",
    "SW.Swap.C59_when",
    "SW.Swap.C59_ordered",
    "SW.Swap.C59_again",
    "SW.Swap.C59_missing"
   ],
   "note": "equal label lists of p1 and p2; the duplicated record column of a second call is proved as a violation"
  },
  {
   "property": "C60",
   "status": "proved",
   "theorems": [
    "SW.Insta.C60_bins",
    "SW.Insta.C60_growth",
    "SW.Insta.C60_threshold",
    "SW.Insta.C60_published"
   ],
   "note": ""
  },
  {
   "property": "C61",
   "status": "proved",
   "theorems": [
    "SW.Cache.C61_session",
    "SW.Cache.C61_history"
   ],
   "note": ""
  },
  {
   "property": "C62",
   "status": "proved",
   "theorems": [
    "SW.Cache.C62_crash_wedges",
    "SW.Cache.C62_first_download"
   ],
   "note": "proves the violation"
  },
  {
   "property": "C63",
   "status": "proved",
   "theorems": [
    "SW.Cache.C63_age"
   ],
   "note": "proves the violation"
  },
  {
   "property": "C64",
   "status": "proved",
   "theorems": [
    "SW.Act.C64_no_extrapolation",
    "SW.Act.C64_unsorted_leaks",
    "SW.Act.C64_overshoot",
    "SW.Act.C64_refused"
   ],
   "note": "spline is an arbitrary interpolating function; overshoot for one cubic through four samples"
  },
  {
   "property": "C65",
   "status": "proved",
   "theorems": [
    "SW.Act.C65_tiling",
    "SW.Act.C65_cut",
    "SW.C65_six_years"
   ],
   "note": ""
  },
  {
   "property": "C66",
   "status": "proved",
   "theorems": [
    "SW.Act.C66_bands",
    "SW.Act.C66_maximum_uncovered",
    "SW.Act.C66_errors"
   ],
   "note": ""
  },
  {
   "property": "C67",
   "status": "proved",
   "theorems": [
    "SW.Act.C67_max",
    "SW.Act.C67_feature",
    "SW.Act.C67_zscore",
    "SW.Act.C67_degenerate"
   ],
   "note": ""
  },
  {
   "property": "C68",
   "status": "proved",
   "theorems": [
    "SW.Act.C68_separation",
    "SW.Act.C68_chain_loses",
    "SW.Act.C68_named",
    "SW.C68_trim"
   ],
   "note": ""
  },
  {
   "property": "C69",
   "status": "proved",
   "theorems": [
    "SW.Icme.C69_contains"
   ],
   "note": ""
  },
  {
   "property": "C70",
   "status": "proved",
   "theorems": [
    "SW.Icme.C70_interval_end",
    "SW.Icme.C70_range",
    "SW.Icme.C70_durations"
   ],
   "note": ""
  },
  {
   "property": "C71",
   "status": "proved",
   "theorems": [
    "SW.Icme.C71_filter",
    "SW.Icme.C71_repeat",
    "SW.Icme.C71_spelling_lost",
    "SW.Icme.C71_missing_name"
   ],
   "note": ""
  },
  {
   "property": "C72",
   "status": "proved",
   "theorems": [
    "SW.Icme.C72_load",
    "SW.Icme.C72_history"
   ],
   "note": ""
  },
  {
   "property": "C73",
   "status": "proved",
   "theorems": [
    "SW.Hist.C73_one_bin",
    "SW.Hist.C73_extremes",
    "SW.Hist.C73_minimum_lost",
    "SW.Hist.C73_explicit_edges",
    "SW.Hist.C73_constant_data"
   ],
   "note": ""
  },
  {
   "property": "C74",
   "status": "proved",
   "theorems": [
    "SW.Hist.C74_counts",
    "SW.Hist.C74_clim",
    "SW.Hist.C74_counts2",
    "SW.Hist.C74_data2"
   ],
   "note": ""
  },
  {
   "property": "C75",
   "status": "proved",
   "theorems": [
    "SW.Hist.C75_linear",
    "SW.Hist.C75_log",
    "SW.Hist.C75_empty",
    "SW.Hist.C76_density",
    "SW.Hist.C76_density_log"
   ],
   "note": ""
  },
  {
   "property": "C76",
   "status": "proved",
   "theorems": [
    "SW.Hist.C76_max_norms",
    "SW.Hist.C76_zero_column",
    "SW.Hist.C76_conditional_densities",
    "SW.Hist.C76_density"
   ],
   "note": ""
  },
  {
   "property": "C77",
   "status": "proved",
   "theorems": [
    "SW.Hist.C77_exact_1d",
    "SW.Hist.C77_2d",
    "SW.Hist.C77_hidden_marked",
    "SW.Hist.C77_threshold"
   ],
   "note": ""
  },
  {
   "property": "C78",
   "status": "proved",
   "theorems": [
    "SW.Hist.C78_cdf",
    "SW.Hist.C78_refuses"
   ],
   "note": ""
  },
  {
   "property": "C79",
   "status": "proved",
   "theorems": [
    "SW.Spiral.C79_partition",
    "SW.Spiral.C79_bin_number"
   ],
   "note": ""
  },
  {
   "property": "C80",
   "status": "proved",
   "theorems": [
    "SW.Spiral.C80_limit",
    "SW.Spiral.C80_terminates_iff"
   ],
   "note": ""
  },
  {
   "property": "C81",
   "status": "proved",
   "theorems": [
    "SW.Spiral.C81_extend",
    "SW.Spiral.C81_all_data_inside",
    "SW.Spiral.C81_every_datum_binned"
   ],
   "note": ""
  },
  {
   "property": "C82",
   "status": "proved",
   "theorems": [
    "SW.PlotTools.C82_grid"
   ],
   "note": ""
  },
  {
   "property": "C83",
   "status": "proved",
   "theorems": [
    "SW.PlotTools.C83_panels",
    "SW.PlotTools.C83_bar",
    "SW.PlotTools.C83_location",
    "SW.PlotTools.C83_shape"
   ],
   "note": ""
  },
  {
   "property": "C84",
   "status": "proved",
   "theorems": [
    "SW.PlotTools.C84_filter",
    "SW.PlotTools.C84_plain",
    "SW.PlotTools.C84_local",
    "SW.PlotTools.C84_integer"
   ],
   "note": "the kernel is any non-negative one with positive centre weight"
  },
  {
   "property": "C85",
   "status": "proved",
   "theorems": [
    "SW.Labels.C85_order",
    "SW.Labels.C85_trichotomy"
   ],
   "note": ""
  },
  {
   "property": "C86",
   "status": "proved",
   "theorems": [
    "SW.Labels.C86_units",
    "SW.Labels.C86_error_units",
    "SW.Labels.C86_unknown",
    "SW.Labels.C86_angular",
    "SW.Labels.C86_table"
   ],
   "note": ""
  },
  {
   "property": "C87",
   "status": "proved",
   "theorems": [
    "SW.Labels.C87_ion",
    "SW.Labels.C87_int_charge",
    "SW.Labels.C87_ratio",
    "SW.C87_charge_text"
   ],
   "note": ""
  },
  {
   "property": "C88",
   "status": "proved",
   "theorems": [
    "SW.Scripts.C88_components",
    "SW.Scripts.C88_forward",
    "SW.Scripts.C88_tags",
    "SW.Scripts.C88_created",
    "SW.Scripts.pkgLt_iff",
    "SW.Scripts.C88_read",
    "SW.Scripts.C88_start",
    "SW.Scripts.C88_refused",
    "SW.C88_create_tag"
   ],
   "note": ""
  },
  {
   "property": "C89",
   "status": "proved",
   "theorems": [
    "SW.Scripts.C89_stops",
    "SW.Scripts.C89_sleeps",
    "SW.Scripts.C89_found",
    "SW.Scripts.C89_exit",
    "SW.Scripts.C89_normalized",
    "SW.Scripts.C89_codes"
   ],
   "note": ""
  },
  {
   "property": "C90",
   "status": "proved",
   "theorems": [
    "SW.Scripts.C90_translate",
    "SW.Scripts.C90_marker"
   ],
   "note": ""
  },
  {
   "property": "C91",
   "status": "proved",
   "theorems": [
    "SW.C91_default_load_needs_attachments",
    "SW.C91_default_load_needs_aux",
    "SW.C91_missing_keys"
   ],
   "note": "proves the violation"
  },
  {
   "property": "C92",
   "status": "proved",
   "theorems": [
    "SW.C92_save_keeps_stale_aux",
    "SW.C92_save_keeps_stale_spacecraft",
    "SW.C92_load_attaches_stale"
   ],
   "note": "proves the violation"
  },
  {
   "property": "C93",
   "status": "proved",
   "theorems": [
    "SW.C93_tensor_set_data_ignored",
    "SW.C93_invalid_rejected"
   ],
   "note": "proves the violation"
  },
  {
   "property": "C94",
   "status": "proved",
   "theorems": [
    "SW.C94_missing_becomes_zero",
    "SW.C94_anisotropy_infinite"
   ],
   "note": "proves the violation"
  },
  {
   "property": "C95",
   "status": "proved",
   "theorems": [
    "SW.C95_opposite_charges_nan"
   ],
   "note": "proves the violation"
  },
  {
   "property": "C96",
   "status": "proved",
   "theorems": [
    "SW.C96_missing_position_is_zero",
    "SW.C96_partial_position"
   ],
   "note": "proves the violation"
  },
  {
   "property": "C97",
   "status": "proved",
   "theorems": [
    "SW.C97_missing_component",
    "SW.C97_all_missing"
   ],
   "note": "proves the violation"
  },
  {
   "property": "C98",
   "status": "proved",
   "theorems": [
    "SW.C98_rectified",
    "SW.C98_polarity",
    "SW.C98_stored"
   ],
   "note": ""
  },
  {
   "property": "C99",
   "status": "proved",
   "theorems": [
    "SW.C99_covariance_failure"
   ],
   "note": "proves the violation"
  },
  {
   "property": "C100",
   "status": "proved",
   "theorems": [
    "SW.C100_no_parent_attribute"
   ],
   "note": "proves the violation"
  },
  {
   "property": "C101",
   "status": "proved",
   "theorems": [
    "SW.C101_moyal_symmetric",
    "SW.C101_reported_formula"
   ],
   "note": "proves the violation"
  },
  {
   "property": "C102",
   "status": "proved",
   "theorems": [
    "SW.C102_few_below",
    "SW.C102_nan_guess",
    "SW.C102_hingeAtPoint",
    "SW.C102_hingeMin"
   ],
   "note": "proves the violation"
  },
  {
   "property": "C103",
   "status": "proved",
   "theorems": [
    "SW.C103_ignored_guesses"
   ],
   "note": "proves the violation"
  },
  {
   "property": "C104",
   "status": "proved",
   "theorems": [
    "SW.C104_hingeAtPoint_flat",
    "SW.C104_saturation_flat"
   ],
   "note": "proves the violation"
  },
  {
   "property": "C105",
   "status": "proved",
   "theorems": [
    "SW.C105_gaussian_guess"
   ],
   "note": ""
  },
  {
   "property": "C106",
   "status": "proved",
   "theorems": [
    "SW.Tex.C106_argument_mutated",
    "SW.Tex.C106_partial_mutation"
   ],
   "note": "proves the violation"
  },
  {
   "property": "C107",
   "status": "proved",
   "theorems": [
    "SW.Tex.C107_rename",
    "SW.Tex.C107_translate",
    "SW.Tex.C107_collision",
    "SW.Tex.C107_missing"
   ],
   "note": ""
  },
  {
   "property": "C108",
   "status": "proved",
   "theorems": [
    "SW.Insta.C108_pandas2",
    "SW.C108_contour_kinds"
   ],
   "note": "proves the violation"
  },
  {
   "property": "C109",
   "status": "proved",
   "theorems": [
    "SW.Insta.C109_missing_is_stable",
    "SW.Insta.C109_legend"
   ],
   "note": "proves the violation"
  },
  {
   "property": "C110",
   "status": "proved",
   "theorems": [
    "SW.Cache.C110_long_lived_loader",
    "SW.C110_downloads"
   ],
   "note": "proves the violation"
  },
  {
   "property": "C111",
   "status": "proved",
   "theorems": [
    "SW.Cache.C111_digits_in_path",
    "SW.Cache.C111_clock"
   ],
   "note": "proves the violation"
  },
  {
   "property": "C112",
   "status": "proved",
   "theorems": [
    "SW.Act.C112_default_kind_fails"
   ],
   "note": "proves the violation"
  },
  {
   "property": "C113",
   "status": "proved",
   "theorems": [
    "SW.Act.C113_edges"
   ],
   "note": ""
  },
  {
   "property": "C114",
   "status": "proved",
   "theorems": [
    "SW.Act.C114_labels",
    "SW.Act.C114_documented_mean"
   ],
   "note": ""
  },
  {
   "property": "C115",
   "status": "proved",
   "theorems": [
    "SW.Act.C115_default_threshold"
   ],
   "note": "proves the violation"
  },
  {
   "property": "C116",
   "status": "proved",
   "theorems": [
    "SW.Act.C116_group",
    "SW.Act.C116_one_per_excursion",
    "SW.Act.C116_two_sample_excursion",
    "SW.Act.C116_one_sample_excursion"
   ],
   "note": "series without missing values"
  },
  {
   "property": "C117",
   "status": "proved",
   "theorems": [
    "SW.Act.C117_first_maximum"
   ],
   "note": ""
  },
  {
   "property": "C118",
   "status": "proved",
   "theorems": [
    "SW.Act.C118_std_error"
   ],
   "note": "proves the violation"
  },
  {
   "property": "C119",
   "status": "proved",
   "theorems": [
    "SW.Act.C119_bands",
    "SW.Act.C119_overlap_fails"
   ],
   "note": ""
  },
  {
   "property": "C120",
   "status": "proved",
   "theorems": [
    "SW.Act.C120_unique_times",
    "SW.Act.C120_order_unchecked",
    "SW.Act.C120_rejected"
   ],
   "note": ""
  },
  {
   "property": "C121",
   "status": "proved",
   "theorems": [
    "SW.Icme.C121_queries"
   ],
   "note": ""
  },
  {
   "property": "C122",
   "status": "proved",
   "theorems": [
    "SW.Icme.C122_truncated_cache"
   ],
   "note": "proves the violation"
  },
  {
   "property": "C123",
   "status": "proved",
   "theorems": [
    "SW.Icme.C123_summary"
   ],
   "note": "duration statistics not modelled"
  },
  {
   "property": "C124",
   "status": "proved",
   "theorems": [
    "SW.Hist.C124_collapse",
    "SW.Hist.C124_default"
   ],
   "note": "proves the violation"
  },
  {
   "property": "C125",
   "status": "proved",
   "theorems": [
    "SW.Hist.C125_axnorm"
   ],
   "note": ""
  },
  {
   "property": "C126",
   "status": "proved",
   "theorems": [
    "SW.Hist.C126_border"
   ],
   "note": ""
  },
  {
   "property": "C127",
   "status": "proved",
   "theorems": [
    "SW.Hist.C127_take",
    "SW.Hist.C127_once"
   ],
   "note": ""
  },
  {
   "property": "C128",
   "status": "proved",
   "theorems": [
    "SW.Hist.C128_clip_keeps",
    "SW.Hist.C128_one_sided",
    "SW.Hist.C128_alim"
   ],
   "note": ""
  },
  {
   "property": "C129",
   "status": "proved",
   "theorems": [
    "SW.Hist.C129_guard"
   ],
   "note": "proves the violation"
  },
  {
   "property": "C130",
   "status": "proved",
   "theorems": [
    "SW.Hist.C130_log_axis"
   ],
   "note": ""
  },
  {
   "property": "C131",
   "status": "proved",
   "theorems": [
    "SW.Spiral.C131_outside_fails",
    "SW.Spiral.C131_nonfinite",
    "SW.Spiral.C131_inside"
   ],
   "note": "proves the violation"
  },
  {
   "property": "C132",
   "status": "proved",
   "theorems": [
    "SW.Spiral.C132_caller_array"
   ],
   "note": "proves the violation"
  },
  {
   "property": "C133",
   "status": "proved",
   "theorems": [
    "SW.Spiral.C133_size_filter",
    "SW.Spiral.C133_density_filter",
    "SW.Spiral.C133_refused"
   ],
   "note": ""
  },
  {
   "property": "C134",
   "status": "proved",
   "theorems": [
    "SW.PlotTools.C134_joint_legend"
   ],
   "note": ""
  },
  {
   "property": "C135",
   "status": "proved",
   "theorems": [
    "SW.PlotTools.C135_sample",
    "SW.PlotTools.C135_excludes",
    "SW.PlotTools.C135_one_missing"
   ],
   "note": ""
  },
  {
   "property": "C136",
   "status": "proved",
   "theorems": [
    "SW.Labels.C136_species",
    "SW.Labels.sep_plus",
    "SW.Labels.C136_unknown",
    "SW.Labels.C136_text"
   ],
   "note": ""
  },
  {
   "property": "C137",
   "status": "proved",
   "theorems": [
    "SW.Labels.C137_description",
    "SW.Labels.C137_mutable_key"
   ],
   "note": "proves the violation"
  },
  {
   "property": "C138",
   "status": "proved",
   "theorems": [
    "SW.Labels.C138_text_constituents",
    "SW.Labels.C138_function_path"
   ],
   "note": "proves the violation"
  },
  {
   "property": "C139",
   "status": "proved",
   "theorems": [
    "SW.Labels.C139_absolute"
   ],
   "note": ""
  },
  {
   "property": "C140",
   "status": "proved",
   "theorems": [
    "SW.Labels.C140_comma",
    "SW.Labels.C140_lt_gt",
    "SW.Labels.C140_structure"
   ],
   "note": "proves the violation"
  },
  {
   "property": "C141",
   "status": "proved",
   "theorems": [
    "SW.Labels.C141_units",
    "SW.Labels.C141_dimensionless",
    "SW.Labels.C141_patterns",
    "SW.Labels.C141_cleanup",
    "SW.Labels.C141_signs"
   ],
   "note": ""
  },
  {
   "property": "C142",
   "status": "proved",
   "theorems": [
    "SW.Labels.C142_frequency",
    "SW.Labels.C142_interval"
   ],
   "note": "proves the violation"
  },
  {
   "property": "C143",
   "status": "proved",
   "theorems": [
    "SW.Labels.C143_axnorm",
    "SW.Labels.C143_distance",
    "SW.Labels.C143_distance_text"
   ],
   "note": ""
  },
  {
   "property": "C144",
   "status": "proved",
   "theorems": [
    "SW.Scripts.C144_latest_is_stale",
    "SW.Scripts.C144_patch_stuck"
   ],
   "note": "proves the violation"
  },
  {
   "property": "C145",
   "status": "proved",
   "theorems": [
    "SW.Scripts.C145_no_final_check",
    "SW.Scripts.C145_zero_interval",
    "SW.Scripts.C145_negative_interval",
    "SW.Scripts.C145_spelling"
   ],
   "note": "proves the violation"
  },
  {
   "property": "C146",
   "status": "proved",
   "theorems": [
    "SW.Scripts.C146_environment",
    "SW.Scripts.C146_options"
   ],
   "note": ""
  },
  {
   "property": "C147",
   "status": "proved",
   "theorems": [
    "SW.Scripts.C147_recipe",
    "SW.Scripts.C147_silent"
   ],
   "note": ""
  },
  {
   "property": "C148",
   "status": "proved",
   "theorems": [
    "SW.Scripts.C148_update",
    "SW.Scripts.C148_ignored"
   ],
   "note": ""
  },
  {
   "property": "C149",
   "status": "proved",
   "theorems": [
    "SW.Scripts.C149_closed",
    "SW.Scripts.C149_opened",
    "SW.Scripts.C149_prefix",
    "SW.Scripts.C149_no_file"
   ],
   "note": ""
  },
  {
   "property": "C150",
   "status": "proved",
   "theorems": [
    "SW.Scripts.C150_rows",
    "SW.Scripts.C150_names",
    "SW.Scripts.C150_other_operators"
   ],
   "note": ""
  },
  {
   "property": "C151",
   "status": "proved",
   "theorems": [
    "SW.Scripts.C151_ready",
    "SW.Scripts.C151_changelog",
    "SW.Scripts.C151_last_section"
   ],
   "note": ""
  },
  {
   "property": "C152",
   "status": "proved",
   "theorems": [
    "SW.C152_twoLine",
    "SW.C152_saturation",
    "SW.C152_hinge",
    "SW.C152_hingeAtPoint",
    "SW.C152_heavySide",
    "SW.C152_heavySide_exact",
    "SW.C152_sufficient"
   ],
   "note": ""
  },
  {
   "property": "C153",
   "status": "proved",
   "theorems": [
    "SW.C153_amplitude"
   ],
   "note": "proves the violation"
  },
  {
   "property": "C154",
   "status": "proved",
   "theorems": [
    "SW.Plt.C154_set_labels",
    "SW.Plt.C154_history",
    "SW.Plt.C154_log_history",
    "SW.C154_new_scatter"
   ],
   "note": ""
  },
  {
   "property": "C155",
   "status": "proved",
   "theorems": [
    "SW.Plt.C155_text_labels",
    "SW.Plt.C155_stale",
    "SW.Plt.C155_scale_wrong",
    "SW.Plt.C155_explicit",
    "SW.Plt.C155_explicit_scales"
   ],
   "note": "the last two prove the violation"
  },
  {
   "property": "C156",
   "status": "proved",
   "theorems": [
    "SW.Plt.C156_in_sync",
    "SW.Plt.C156_constructed",
    "SW.Plt.C156_shared",
    "SW.Plt.C156_word_refused",
    "SW.Plt.C156_accepts"
   ],
   "note": ""
  },
  {
   "property": "C157",
   "status": "proved",
   "theorems": [
    "SW.Plt.C157_injective",
    "SW.Plt.C157_collisions",
    "SW.Plt.C157_new_hist2d_count",
    "SW.Plt.C157_new_hist2d",
    "SW.Plt.C157_new_hist1d",
    "SW.Plt.C157_new_hist1d_count",
    "SW.Plt.C157_new_scatter",
    "SW.Plt.C157_new_spiral"
   ],
   "note": ""
  },
  {
   "property": "C158",
   "status": "proved",
   "theorems": [
    "SW.Orb.C158_legs",
    "SW.Orb.C158_refused",
    "SW.Orb.C158_cell"
   ],
   "note": ""
  },
  {
   "property": "C159",
   "status": "proved",
   "theorems": [
    "SW.Orb.C159_max_norms",
    "SW.Orb.C159_density",
    "SW.Orb.C159_density_wrong",
    "SW.Orb.C159_density_uniform",
    "SW.Orb.C159_limits_wrong",
    "SW.Orb.C159_conditional"
   ],
   "note": ""
  },
  {
   "property": "C160",
   "status": "proved",
   "theorems": [
    "SW.Orb.C160_own_axes",
    "SW.Orb.C160_named",
    "SW.Orb.C160_shared_kwargs",
    "SW.Orb.C160_orbit_cbar",
    "SW.Orb.C160_kind",
    "SW.Orb.C160_mirrored",
    "SW.C160_orbit_scale"
   ],
   "note": ""
  },
  {
   "property": "C161",
   "status": "proved",
   "theorems": [
    "SW.Orb.C161_points",
    "SW.Orb.C161_coloured"
   ],
   "note": ""
  },
  {
   "property": "C162",
   "status": "proved",
   "theorems": [
    "SW.Orb.C162_marked",
    "SW.Orb.C162_covers_and_overshoots",
    "SW.Orb.C162_refused"
   ],
   "note": ""
  },
  {
   "property": "C163",
   "status": "proved",
   "theorems": [
    "SW.Orb.C163_untouched",
    "SW.Orb.C163_limited",
    "SW.Orb.C163_counts_wrong",
    "SW.Orb.C163_defaults"
   ],
   "note": ""
  },
  {
   "property": "C164",
   "status": "proved",
   "theorems": [
    "SW.Uc.C164_labels",
    "SW.Uc.C164_derived",
    "SW.Uc.C164_heat_flux",
    "SW.Uc.C164_entropy",
    "SW.C164_defaults"
   ],
   "note": "proves the violation"
  },
  {
   "property": "C165",
   "status": "proved",
   "theorems": [
    "SW.Uc.C165_tables",
    "SW.Uc.C165_polytropic"
   ],
   "note": ""
  },
  {
   "property": "C166",
   "status": "proved",
   "theorems": [
    "SW.FFP.C166_path",
    "SW.FFP.C166_y_scale",
    "SW.FFP.C166_distinct",
    "SW.FFP.C166_history",
    "SW.FFP.C166_refused"
   ],
   "note": "proves the violation"
  },
  {
   "property": "C167",
   "status": "proved",
   "theorems": [
    "SW.FFP.C167_few",
    "SW.FFP.C167_spacing",
    "SW.FFP.C167_monotone"
   ],
   "note": ""
  },
  {
   "property": "C168",
   "status": "proved",
   "theorems": [
    "SW.FFP.C168_residuals",
    "SW.FFP.C168_agree",
    "SW.FFP.C168_kinds",
    "SW.FFP.C168_unknown",
    "SW.FFP.C168_style",
    "SW.FFP.C168_label_both",
    "SW.FFP.C168_label_single",
    "SW.FFP.C168_dict",
    "SW.C168_label_default"
   ],
   "note": "proves the violations"
  },
  {
   "property": "C169",
   "status": "proved",
   "theorems": [
    "SW.FFP.C169_window",
    "SW.FFP.C169_unweighted",
    "SW.FFP.C169_gap"
   ],
   "note": ""
  },
  {
   "property": "C170",
   "status": "proved",
   "theorems": [
    "SW.Cov.C170_symmetric",
    "SW.Cov.C170_inverse",
    "SW.Cov.C170_pseudo",
    "SW.Cov.C170_sigma",
    "SW.Cov.C170_rescale"
   ],
   "note": "SciPy's svd is a hypothesis (IsSVD)"
  },
  {
   "property": "C171",
   "status": "proved",
   "theorems": [
    "SW.Cov.C171_history",
    "SW.Cov.C171_failed",
    "SW.Cov.C171_stale"
   ],
   "note": "proves the violations"
  },
  {
   "property": "C172",
   "status": "proved",
   "theorems": [
    "SW.Imp.C172_sound",
    "SW.Imp.C172_found",
    "SW.Imp.C172_once",
    "SW.Imp.C172_missed",
    "SW.Imp.C172_terminates"
   ],
   "note": "proves the violation"
  },
  {
   "property": "C173",
   "status": "proved",
   "theorems": [
    "SW.Imp.C173_relative",
    "SW.Imp.C173_relative_init",
    "SW.Imp.C173_absolute",
    "SW.Imp.C173_subpackage",
    "SW.Imp.C173_edges",
    "SW.Imp.C173_simple_finds_nothing"
   ],
   "note": "proves the violations"
  },
  {
   "property": "C174",
   "status": "proved",
   "theorems": [
    "SW.Tex.C174_reported",
    "SW.Tex.C174_small_value",
    "SW.Tex.C174_zero_uncertainty",
    "SW.Tex.C174_nonfinite"
   ],
   "note": "proves the violation"
  },
  {
   "property": "C175",
   "status": "proved",
   "theorems": [
    "SW.Tex.C175_line",
    "SW.Tex.C175_lines",
    "SW.Tex.C175_plain_kept",
    "SW.Tex.C175_formula_damaged"
   ],
   "note": "proves the violation"
  },
  {
   "property": "C176",
   "status": "proved",
   "theorems": [
    "SW.Tex.C176_decimal",
    "SW.Tex.C176_exponent",
    "SW.Tex.C176_value_lost",
    "SW.Tex.C176_line",
    "SW.Tex.C176_parameter"
   ],
   "note": "proves the violation; str(float(t)) is the shortest decimal (hypothesis)"
  },
  {
   "property": "C177",
   "status": "proved",
   "theorems": [
    "SW.Tex.C177_set",
    "SW.Tex.C177_first",
    "SW.Tex.C177_not_repeatable"
   ],
   "note": "proves the violation"
  },
  {
   "property": "C178",
   "status": "proved",
   "theorems": [
    "SW.Swap.C178_moments",
    "SW.Swap.C178_base_ten",
    "SW.Swap.C178_agree"
   ],
   "note": "proves the violated documentation"
  },
  {
   "property": "C179",
   "status": "proved",
   "theorems": [
    "SW.C179_times",
    "SW.C179_times_plus",
    "SW.C179_none_beyond",
    "SW.C179_plus",
    "SW.C179_plus_origin"
   ],
   "note": "proves the violation"
  },
  {
   "property": "C180",
   "status": "proved",
   "theorems": [
    "SW.C180_exact",
    "SW.C180_unit",
    "SW.C180_few",
    "SW.C180_intercepts",
    "SW.lsq_nonvacuous"
   ],
   "note": "proves the violation; np.polyfit is a least-squares slope (hypothesis, shown satisfiable)"
  },
  {
   "property": "C181",
   "status": "proved",
   "theorems": [
    "SW.C181_exponential",
    "SW.C181_exponential_exact",
    "SW.C181_cdf",
    "SW.C181_power",
    "SW.C181_moyal",
    "SW.C181_refused"
   ],
   "note": "proves the violations"
  },
  {
   "property": "C182",
   "status": "proved",
   "theorems": [
    "SW.Hist.C182_axes",
    "SW.Hist.C182_two_edges",
    "SW.Hist.C182_own"
   ],
   "note": "proves the violation"
  },
  {
   "property": "C183",
   "status": "proved",
   "theorems": [
    "SW.Hist.C183_marginal",
    "SW.Hist.C183_hidden",
    "SW.Hist.C183_dependent",
    "SW.Hist.C183_axis"
   ],
   "note": "proves the violations"
  },
  {
   "property": "C184",
   "status": "proved",
   "theorems": [
    "SW.Hist.C184_rectangle",
    "SW.Hist.C184_centre",
    "SW.Hist.C184_grid",
    "SW.Hist.C184_levels",
    "SW.C184_default_levels",
    "SW.Hist.C184_density_levels",
    "SW.Hist.C184_curve"
   ],
   "note": "proves the violation"
  },
  {
   "property": "C185",
   "status": "proved",
   "theorems": [
    "SW.Act.C185_values",
    "SW.Act.C185_local",
    "SW.Act.C185_max"
   ],
   "note": ""
  },
  {
   "property": "C186",
   "status": "proved",
   "theorems": [
    "SW.Act.C186_run",
    "SW.Act.C186_cached",
    "SW.Act.C186_first_read",
    "SW.Act.C186_run_after_nssn",
    "SW.Act.C186_interpolated",
    "SW.Act.C186_band",
    "SW.Act.C186_norm_by",
    "SW.Act.C186_no_column"
   ],
   "note": "proves the violations"
  },
  {
   "property": "C187",
   "status": "proved",
   "theorems": [
    "SW.Act.C187_lisird",
    "SW.Act.C187_colorbar",
    "SW.Act.C187_ties",
    "SW.Act.C187_ticks"
   ],
   "note": "proves the violations"
  },
  {
   "property": "C188",
   "status": "proved",
   "theorems": [
    "SW.PlotTools.C188_names",
    "SW.PlotTools.C188_writes",
    "SW.PlotTools.C188_refused",
    "SW.PlotTools.C188_history",
    "SW.PlotTools.C188_kept",
    "SW.PlotTools.C188_subplots"
   ],
   "note": "proves the violations"
  },
  {
   "property": "C189",
   "status": "proved",
   "theorems": [
    "SW.PlotTools.C189_selecting",
    "SW.PlotTools.C189_summary",
    "SW.PlotTools.C189_right_iff",
    "SW.PlotTools.C189_double_count",
    "SW.PlotTools.C189_construct"
   ],
   "note": "proves the violations"
  },
  {
   "property": "C190",
   "status": "proved",
   "theorems": [
    "SW.Spiral.C190_cell",
    "SW.Spiral.C190_conserved",
    "SW.Spiral.C190_mean_between",
    "SW.Spiral.C190_constant",
    "SW.Spiral.C190_default_mean",
    "SW.Spiral.C190_data"
   ],
   "note": "proves the violations"
  },
  {
   "property": "C191",
   "status": "proved",
   "theorems": [
    "SW.Spiral.C191_thresholds",
    "SW.Spiral.C191_rectangle",
    "SW.Spiral.C191_position",
    "SW.Spiral.C191_norm",
    "SW.Spiral.C191_alpha"
   ],
   "note": "proves the violations"
  },
  {
   "property": "C192",
   "status": "proved",
   "theorems": [
    "SW.FitRun.C192_start",
    "SW.FitRun.C192_start_value",
    "SW.FitRun.C192_lm_bounds",
    "SW.FitRun.C192_args",
    "SW.FitRun.C192_guess_needed",
    "SW.FitRun.C192_bounds_by_name",
    "SW.FitRun.C192_bound_missing",
    "SW.FitRun.C192_wellposed",
    "SW.FitRun.C192_lm_alone",
    "SW.FitRun.C192_wrong_length",
    "SW.FitRun.C192_zero_weight"
   ],
   "note": "proves the violations"
  },
  {
   "property": "C193",
   "status": "proved",
   "theorems": [
    "SW.FitRun.C193_least_squares",
    "SW.FitRun.C193_outlier",
    "SW.FitRun.C193_units",
    "SW.FitRun.C193_unit_dependent"
   ],
   "note": "proves the violations"
  },
  {
   "property": "C194",
   "status": "proved",
   "theorems": [
    "SW.FitRun.C194_trend",
    "SW.FitRun.C194_refused",
    "SW.FitRun.C194_label_sound",
    "SW.FitRun.C194_label_unsound",
    "SW.FitRun.C194_drawn",
    "SW.FitRun.C194_drawn_log"
   ],
   "note": "proves the violations"
  },
  {
   "property": "C195",
   "status": "proved",
   "theorems": [
    "SW.C195_single",
    "SW.C195_pair",
    "SW.C195_self",
    "SW.C195_commas",
    "SW.C195_unknown",
    "SW.C195_index",
    "SW.C195_boost_pair",
    "SW.C195_boost_single",
    "SW.C195_alfven",
    "SW.C195_defaults"
   ],
   "note": ""
  },
  {
   "property": "C196",
   "status": "proved",
   "theorems": [
    "SW.C196_agree",
    "SW.C196_missing",
    "SW.C196_anisotropy_missing",
    "SW.C196_sound",
    "SW.C196_sound_empty",
    "SW.C196_no_scalar",
    "SW.C196_eq"
   ],
   "note": "proves the violations"
  },
  {
   "property": "C197",
   "status": "proved",
   "theorems": [
    "SW.Labels.C197_balanced",
    "SW.Labels.C197_thin_space"
   ],
   "note": "proves the violation"
  },
  {
   "property": "C198",
   "status": "proved",
   "theorems": [
    "SW.Labels.C198_text",
    "SW.Labels.C198_default",
    "SW.Labels.C198_components",
    "SW.Labels.C198_debris"
   ],
   "note": "proves the violations"
  },
  {
   "property": "C199",
   "status": "proved",
   "theorems": [
    "SW.Labels.C199_equal",
    "SW.Labels.C199_labels",
    "SW.Labels.C199_species",
    "SW.Labels.C199_collisions"
   ],
   "note": "proves the violations"
  },
  {
   "property": "C200",
   "status": "proved",
   "theorems": [
    "SW.Labels.C200_path",
    "SW.Labels.C200_case",
    "SW.Labels.C200_percent",
    "SW.Labels.C200_species",
    "SW.Labels.C200_text",
    "SW.Labels.C200_epoch",
    "SW.Labels.C200_date"
   ],
   "note": "proves the violations"
  },
  {
   "property": "C201",
   "status": "proved",
   "theorems": [
    "SW.Labels.C201_ssn",
    "SW.Labels.C201_ssn_unique",
    "SW.Labels.C201_xcorr_errors",
    "SW.Labels.C201_xcorr_clean",
    "SW.Labels.C201_xcorr_text",
    "SW.Labels.C201_ambiguous",
    "SW.Labels.C201_manual",
    "SW.Labels.C201_manual_text",
    "SW.Labels.C201_count"
   ],
   "note": "proves the violations"
  },
  {
   "property": "C202",
   "status": "proved",
   "theorems": [
    "SW.PObj.C202_endless",
    "SW.PObj.C202_found",
    "SW.PObj.C202_copy",
    "SW.PObj.C202_access",
    "SW.PObj.C202_hasattr",
    "SW.PObj.C202_unset",
    "SW.PObj.C202_shadow"
   ],
   "note": "proves the violations"
  },
  {
   "property": "C203",
   "status": "proved",
   "theorems": [
    "SW.PObj.C203_electrons",
    "SW.PObj.C203_histories",
    "SW.PObj.C203_set_data",
    "SW.PObj.C203_refused",
    "SW.PObj.C203_half",
    "SW.PObj.C203_duplicate"
   ],
   "note": "proves the violations"
  },
  {
   "property": "C204",
   "status": "proved",
   "theorems": [
    "SW.Act.C204_mean",
    "SW.Act.C204_first"
   ],
   "note": "proves the violation"
  },
  {
   "property": "C205",
   "status": "proved",
   "theorems": [
    "SW.Act.C205_extremum",
    "SW.Act.C205_crossings",
    "SW.Act.C205_edges",
    "SW.Act.C205_complete",
    "SW.Act.C205_trusted",
    "SW.Act.C205_dates",
    "SW.Act.C205_units",
    "SW.Act.C205_names",
    "SW.Act.C205_early"
   ],
   "note": "proves the violation"
  },
  {
   "property": "C206",
   "status": "proved",
   "theorems": [
    "SW.C206_elements",
    "SW.C206_lookup",
    "SW.C206_ratio",
    "SW.C206_most",
    "SW.C206_hydrogen",
    "SW.C206_comment"
   ],
   "note": "proves the violations"
  },
  {
   "property": "C207",
   "status": "proved",
   "theorems": [
    "SW.Act.C207_cycles",
    "SW.Act.C207_cut",
    "SW.Act.C207_dates",
    "SW.Act.C207_shipped",
    "SW.Act.C207_default"
   ],
   "note": ""
  },
  {
   "property": "C208",
   "status": "proved",
   "theorems": [
    "SW.C208_tables",
    "SW.C208_local",
    "SW.C208_keyError",
    "SW.C208_free",
    "SW.C208_com",
    "SW.C208_proj",
    "SW.C208_pairs",
    "SW.C208_nc",
    "SW.C208_electrons",
    "SW.C208_sums",
    "SW.C208_pdynamic_proj"
   ],
   "note": "proves the violation"
  },
  {
   "property": "C209",
   "status": "proved",
   "theorems": [
    "SW.FitRun.C209_report",
    "SW.FitRun.C209_not_the_start",
    "SW.FitRun.C209_no_guess",
    "SW.FitRun.C209_line",
    "SW.FitRun.C209_dof",
    "SW.FitRun.C209_default_start",
    "SW.FitRun.C209_before"
   ],
   "note": "proves the violations"
  },
  {
   "property": "C210",
   "status": "proved",
   "theorems": [
    "SW.Act.C210_keys",
    "SW.Act.C210_documented",
    "SW.Act.C210_download",
    "SW.Act.C210_dates",
    "SW.Act.C210_construct",
    "SW.Act.C210_plot"
   ],
   "note": "proves the violations"
  },
  {
   "property": "C211",
   "status": "proved",
   "theorems": [
    "SW.Act.C211_cycle",
    "SW.Act.C211_labels",
    "SW.Act.C211_shipped",
    "SW.Act.C211_minimum"
   ],
   "note": "proves the violation"
  },
  {
   "property": "C212",
   "status": "proved",
   "theorems": [
    "SW.Tex.C212_text",
    "SW.Tex.C212_stripped",
    "SW.Tex.C212_exponent",
    "SW.Tex.C212_exponent_stripped",
    "SW.Tex.C212_paper",
    "SW.Tex.C212_relative_error",
    "SW.Tex.C212_failed",
    "SW.Tex.C212_available",
    "SW.Tex.C212_spare_uncertainty",
    "SW.Tex.C212_statistics"
   ],
   "note": "proves the violations"
  },
  {
   "property": "C213",
   "status": "proved",
   "theorems": [
    "SW.Tex.C213_lines",
    "SW.Tex.C213_relative_error",
    "SW.Tex.C213_failed_formula"
   ],
   "note": "proves the violations"
  },
  {
   "property": "C214",
   "status": "proved",
   "theorems": [
    "SW.Tex.C214_lines",
    "SW.Tex.C214_gaussians",
    "SW.Tex.C214_exponentials",
    "SW.Tex.C214_powerLaws",
    "SW.Tex.C214_steps",
    "SW.Tex.C214_hinges",
    "SW.Tex.C214_wrong",
    "SW.Tex.C214_shown"
   ],
   "note": "proves the violations of GaussianLn and Moyal"
  },
  {
   "property": "C215",
   "status": "proved",
   "theorems": [
    "SW.Labels.C215_refresh",
    "SW.Labels.C215_new",
    "SW.Labels.C215_stale",
    "SW.Labels.C215_mixed",
    "SW.Labels.C215_setters",
    "SW.Labels.C215_cycle",
    "SW.Labels.C215_frequency_path"
   ],
   "note": "proves the violations"
  },
  {
   "property": "C216",
   "status": "proved",
   "theorems": [
    "SW.C216_drift",
    "SW.C216_collisions",
    "SW.C216_scalars",
    "SW.C216_velocity",
    "SW.C216_invariant",
    "SW.C216_electrons",
    "SW.C216_projected",
    "SW.C216_same_ion",
    "SW.C216_vdf_unbounded",
    "SW.C216_missing"
   ],
   "note": "proves the violations"
  },
  {
   "property": "C217",
   "status": "proved",
   "theorems": [
    "SW.C217_vectors",
    "SW.C217_scalars",
    "SW.C217_projected",
    "SW.C217_electrons",
    "SW.C217_vector_algebra"
   ],
   "note": ""
  },
  {
   "property": "C218",
   "status": "proved",
   "theorems": [
    "SW.C218_extensive",
    "SW.C218_intensive",
    "SW.C218_powers",
    "SW.C218_drifting",
    "SW.C218_electrons",
    "SW.C218_lnlambda"
   ],
   "note": ""
  },
  {
   "property": "C219",
   "status": "proved",
   "theorems": [
    "SW.C219_thermal",
    "SW.C219_field",
    "SW.C219_polarity",
    "SW.C219_anisotropy"
   ],
   "note": ""
  },
  {
   "property": "C220",
   "status": "proved",
   "theorems": [
    "SW.Repro.C220_all_or_nothing",
    "SW.Repro.C220_settled",
    "SW.Repro.C220_withheld",
    "SW.Repro.C220_raises",
    "SW.Repro.C220_dirty_is_real",
    "SW.Repro.C220_not_all_changes",
    "SW.Repro.C220_race",
    "SW.Repro.C220_installed",
    "SW.Repro.C220_dependencies",
    "SW.Repro.C220_total",
    "SW.Repro.C220_citation",
    "SW.Repro.C220_citation_identifies",
    "SW.Repro.C220_printed"
   ],
   "note": "not_all_changes, race and installed state what a user would expect and the code does not do"
  },
  {
   "property": "C221",
   "status": "proved",
   "theorems": [
    "SW.C221_axes",
    "SW.C221_reversal",
    "SW.C221_rectified",
    "SW.C221_units",
    "SW.C221_density",
    "SW.C221_clock",
    "SW.C221_wave"
   ],
   "note": ""
  },
  {
   "property": "C222",
   "status": "proved",
   "theorems": [
    "SW.C222_rows",
    "SW.C222_reindexed",
    "SW.C222_offset",
    "SW.C222_velocity_own",
    "SW.C222_no_velocity",
    "SW.C222_counted",
    "SW.C222_counted_depends"
   ],
   "note": "no_velocity and counted_depends state what a user would expect and the code does not do"
  },
  {
   "property": "C223",
   "status": "proved",
   "theorems": [
    "SW.Insta.C223_23",
    "SW.Insta.C223_34_cold",
    "SW.Insta.C223_34_hot",
    "SW.Insta.C223_34_violated",
    "SW.Insta.C223_34_violated_low",
    "SW.Insta.C223_between_gone"
   ],
   "note": "bins as computed with pandas < 2 (C108); 34_violated and 34_violated_low state what a user would expect and the fits do not do"
  },
  {
   "property": "C224",
   "status": "proved",
   "theorems": [
    "SW.Insta.C224_names",
    "SW.Insta.C224_colours",
    "SW.Insta.C224_mpl39",
    "SW.Insta.C224_row"
   ],
   "note": "mpl39 states the violated part"
  },
  {
   "property": "C225",
   "status": "proved",
   "theorems": [
    "SW.C225_lines",
    "SW.C225_hinges",
    "SW.C225_peaks",
    "SW.C225_composites",
    "SW.C225_decays",
    "SW.C225_saturation",
    "SW.C225_hingeSaturation",
    "SW.C225_guess_lines",
    "SW.C225_guess_two",
    "SW.C225_guess_hinge",
    "SW.C225_guess_point",
    "SW.C225_guess_step",
    "SW.C225_guess_peaks",
    "SW.C225_guess_composites",
    "SW.C225_guess_saturation",
    "SW.C225_guess_other",
    "SW.C225_step_violated",
    "SW.C225_threshold_violated",
    "SW.C225_angle_violated",
    "SW.C225_guess_point_violated"
   ],
   "note": "the *_violated theorems and guess_other state what a user would expect and the code does not do; numpy.polyfit's slope is assumed to convert"
  },
  {
   "property": "C226",
   "status": "proved",
   "theorems": [
    "SW.C226_curves",
    "SW.C226_at_zero",
    "SW.C226_guess_lines",
    "SW.C226_guess_step",
    "SW.C226_guess_peaks",
    "SW.C226_guess_composites",
    "SW.C226_guess_intercepts_violated",
    "SW.C226_guess_cut_violated"
   ],
   "note": "the *_violated theorems state what a user would expect and the code does not do"
  },
  {
   "property": "C227",
   "status": "proved",
   "theorems": [
    "SW.C227_selection",
    "SW.C227_guesses",
    "SW.C227_objective",
    "SW.C227_statistics",
    "SW.C227_line_violated",
    "SW.C227_point_violated"
   ],
   "note": "the *_violated theorems state what a user would expect and the code does not do; sums are exact (no rounding)"
  },
  {
   "property": "C228",
   "status": "proved",
   "theorems": [
    "SW.Hist.C228_repeated",
    "SW.Hist.C228_distinct",
    "SW.Hist.C228_rows",
    "SW.Hist.C228_order",
    "SW.Hist.C228_repeated_y",
    "SW.Hist.C228_counts",
    "SW.Hist.C228_rows2",
    "SW.Hist.C228_repeated2"
   ],
   "note": "repeated states what a user would expect to work and does not; empty x and y together are not modelled"
  },
  {
   "property": "C229",
   "status": "proved",
   "theorems": [
    "SW.Hist.C229_counts",
    "SW.Hist.C229_total",
    "SW.Hist.C229_density"
   ],
   "note": "density states the violated part"
  },
  {
   "property": "C230",
   "status": "proved",
   "theorems": [
    "SW.Hist.C230_cells",
    "SW.Hist.C230_labels"
   ],
   "note": "the removal of _bimax from the label is any function of the text"
  },
  {
   "property": "C231",
   "status": "proved",
   "theorems": [
    "SW.Box.C231_tensor",
    "SW.Box.C231_vector",
    "SW.Box.C231_magnitude_violated",
    "SW.Box.C231_vector_mag",
    "SW.Box.C231_repeated_column"
   ],
   "note": "magnitude_violated and repeated_column state what a user would expect and the code does not do; the ValueError is pandas' length check of a dictionary operand"
  },
  {
   "property": "C232",
   "status": "proved",
   "theorems": [
    "SW.Box.C232_project",
    "SW.Box.C232_cos",
    "SW.Box.C232_missing",
    "SW.Box.C232_other"
   ],
   "note": "C232_missing states the violated part"
  },
  {
   "property": "C233",
   "status": "proved",
   "theorems": [
    "SW.C233_totals",
    "SW.C233_flows",
    "SW.C233_temperature"
   ],
   "note": "C233_temperature states the violated part"
  },
  {
   "property": "C234",
   "status": "proved",
   "theorems": [
    "SW.C234_electrons"
   ],
   "note": "the last two conjuncts state when the thermal speed is kept and how it changes"
  },
  {
   "property": "C235",
   "status": "proved",
   "theorems": [
    "SW.Act.C235_table",
    "SW.Act.C235_order",
    "SW.Act.C235_twice",
    "SW.Act.C235_noon"
   ],
   "note": "C235_twice and C235_noon state the violated parts"
  },
  {
   "property": "C236",
   "status": "proved",
   "theorems": [
    "SW.Labels.C236_listing",
    "SW.Labels.C236_removed",
    "SW.Labels.C236_empty",
    "SW.Labels.C236_classes",
    "SW.Labels.C236_measurements",
    "SW.Labels.C236_star"
   ],
   "note": "C236_removed, the last part of C236_classes, C236_measurements and C236_star state the violated parts"
  },
  {
   "property": "C237",
   "status": "proved",
   "theorems": [
    "SW.Hist.C237_order"
   ],
   "note": ""
  },
  {
   "property": "C238",
   "status": "proved",
   "theorems": [
    "SW.Hist.C238_join",
    "SW.Hist.C238_default"
   ],
   "note": "C238_default states the violated part"
  },
  {
   "property": "C239",
   "status": "proved",
   "theorems": [
    "SW.Hist.C239_coarser"
   ],
   "note": ""
  },
  {
   "property": "C240",
   "status": "proved",
   "theorems": [
    "SW.Hist.C240_marginal",
    "SW.Hist.C240_units"
   ],
   "note": ""
  },
  {
   "property": "C241",
   "status": "proved",
   "theorems": [
    "SW.Plans.C241_all",
    "SW.Plans.C241_growing",
    "SW.Plans.C241_missed"
   ],
   "note": "C241_missed states the violated part"
  },
  {
   "property": "C242",
   "status": "proved",
   "theorems": [
    "SW.Plans.C242_adds",
    "SW.Plans.C242_once",
    "SW.Plans.C242_complete",
    "SW.Plans.C242_twice"
   ],
   "note": "C242_twice states the violated part; the titles are those at the start of the session (C241)"
  },
  {
   "property": "C243",
   "status": "proved",
   "theorems": [
    "SW.Plans.C243_last",
    "SW.Plans.C243_shape",
    "SW.Plans.C243_repeat",
    "SW.Plans.C243_unnamed",
    "SW.Plans.C243_directory"
   ],
   "note": "C243_last also says what is violated"
  },
  {
   "property": "C244",
   "status": "proved",
   "theorems": [
    "SW.Plans.C244_read",
    "SW.Plans.C244_plain",
    "SW.Plans.C244_errors",
    "SW.Plans.C244_cut",
    "SW.Plans.C244_remote",
    "SW.Plans.C244_remote_parts",
    "SW.Plans.C244_remote_slash"
   ],
   "note": "C244_cut and C244_remote_slash state the violated parts"
  },
  {
   "property": "C245",
   "status": "proved",
   "theorems": [
    "SW.Sc.C245_accepts",
    "SW.Sc.C245_errors",
    "SW.Sc.C245_reads",
    "SW.Sc.C245_again",
    "SW.Sc.C245_others"
   ],
   "note": "the KeyError parts of C245_reads for incomplete measurements are the violated part"
  },
  {
   "property": "C246",
   "status": "proved",
   "theorems": [
    "SW.Sc.C246_history"
   ],
   "note": ""
  },
  {
   "property": "C247",
   "status": "proved",
   "theorems": [
    "SW.Recipe.C247_update",
    "SW.Recipe.C247_read",
    "SW.Recipe.C247_main",
    "SW.Recipe.C247_compare"
   ],
   "note": "C247_compare also states the violated part"
  },
  {
   "property": "C248",
   "status": "proved",
   "theorems": [
    "SW.Recipe.C248_read",
    "SW.Recipe.C248_extras",
    "SW.Recipe.C248_none"
   ],
   "note": "C248_extras states the violated part"
  },
  {
   "property": "C249",
   "status": "proved",
   "theorems": [
    "SW.DocS.C249_tag",
    "SW.DocS.C249_not_master",
    "SW.DocS.C249_release"
   ],
   "note": "C249_not_master states the violated part; answers of git and gh are inputs"
  },
  {
   "property": "C250",
   "status": "proved",
   "theorems": [
    "SW.DocS.C250_file",
    "SW.DocS.C250_directory",
    "SW.DocS.C250_targeted",
    "SW.DocS.C250_ci"
   ],
   "note": "C250_directory and C250_targeted also state the violated parts"
  },
  {
   "property": "C251",
   "status": "proved",
   "theorems": [
    "SW.DocS.C251_blocks",
    "SW.DocS.C251_again"
   ],
   "note": "C251_again also states the violated part"
  },
  {
   "property": "C252",
   "status": "proved",
   "theorems": [
    "SW.Rnd.C252_energy",
    "SW.Rnd.C252_range",
    "SW.Rnd.C252_reverse",
    "SW.Rnd.C252_wave",
    "SW.Rnd.C252_ratio",
    "SW.Rnd.C252_unit",
    "SW.Rnd.C252_accuracy",
    "SW.Rnd.C252_exact",
    "SW.Rnd.C252_budget_violated"
   ],
   "note": "C252_exact gives the formulas without rounding; C252_budget_violated states the violated part; a quotient by a vanishing energy is NaN in numpy and outside the claim"
  },
  {
   "property": "C253",
   "status": "proved",
   "theorems": [
    "SW.Rnd.C253_nonneg",
    "SW.Rnd.C253_component",
    "SW.Rnd.C253_unit",
    "SW.Rnd.C253_axis",
    "SW.Rnd.C253_plane",
    "SW.Rnd.C253_reverse",
    "SW.Rnd.C253_scale",
    "SW.Rnd.C253_accuracy",
    "SW.Rnd.C253_exact",
    "SW.Rnd.C253_cosine_violated",
    "SW.Rnd.binary_nearest"
   ],
   "note": "C253_cosine_violated states the violated part; binary_nearest says that the format rounds to nearest; the zero vector has no unit vector (NaN in numpy)"
  },
  {
   "property": "C254",
   "status": "proved",
   "theorems": [
    "SW.Rnd.C254_density",
    "SW.Rnd.C254_accuracy",
    "SW.Rnd.C254_two",
    "SW.Rnd.C254_order_violated",
    "SW.Rnd.C254_flow",
    "SW.Rnd.C254_flow_zero",
    "SW.Rnd.C254_exact"
   ],
   "note": "C254_order_violated states the violated part"
  },
  {
   "property": "C255",
   "status": "proved",
   "theorems": [
    "SW.Rnd.C255_feature",
    "SW.Rnd.C255_feature_range",
    "SW.Rnd.C255_max",
    "SW.Rnd.C255_position",
    "SW.Rnd.C255_rsq",
    "SW.Rnd.C255_mean",
    "SW.Rnd.C255_chisq",
    "SW.Rnd.C255_exact"
   ],
   "note": ""
  },
  {
   "property": "C256",
   "status": "proved",
   "theorems": [
    "SW.Rnd.C256_partition",
    "SW.Rnd.C256_limit",
    "SW.Rnd.C256_terminates_iff",
    "SW.Rnd.C256_last_edge"
   ],
   "note": ""
  },
  {
   "property": "C257",
   "status": "proved",
   "theorems": [
    "SW.Rnd.C257_density",
    "SW.Rnd.C257_pressure",
    "SW.Rnd.C257_temperature",
    "SW.Rnd.C257_beta",
    "SW.Rnd.C257_sound",
    "SW.Rnd.C257_alfven",
    "SW.Rnd.C257_entropy",
    "SW.Rnd.C257_anisotropy",
    "SW.Rnd.C257_sum",
    "SW.Rnd.C257_double"
   ],
   "note": "non-integer powers are assumed accurate to j errors (PowerOk); the correctly rounded power is an instance"
  },
  {
   "property": "C258",
   "status": "proved",
   "theorems": [
    "SW.Rnd.C258_accuracy",
    "SW.Rnd.C258_double",
    "SW.Rnd.C258_sum",
    "SW.Rnd.C258_reverse",
    "SW.Rnd.C258_rest",
    "SW.Rnd.C258_sign",
    "SW.Rnd.C258_pressure",
    "SW.Rnd.C258_same_violated"
   ],
   "note": ""
  },
  {
   "property": "C259",
   "status": "proved",
   "theorems": [
    "SW.Rnd.C259_density1",
    "SW.Rnd.C259_density2",
    "SW.Rnd.C259_column",
    "SW.Rnd.C259_row",
    "SW.Rnd.C259_empty",
    "SW.Rnd.C259_order",
    "SW.Rnd.C257_double"
   ],
   "note": ""
  },
  {
   "property": "C260",
   "status": "proved",
   "theorems": [
    "SW.Rnd.C260_gaussian",
    "SW.Rnd.C260_gaussian_normalized",
    "SW.Rnd.C260_gaussian_ln",
    "SW.Rnd.C260_exponential",
    "SW.Rnd.C260_exponential_cdf",
    "SW.Rnd.C260_line",
    "SW.Rnd.C260_two_lines",
    "SW.Rnd.C260_hinge_min",
    "SW.Rnd.C260_hinge_max",
    "SW.Rnd.C260_hinge_point",
    "SW.Rnd.C260_hinge_meets",
    "SW.Rnd.C260_hinge_near",
    "SW.Rnd.C260_step",
    "SW.Rnd.C260_hinge_violated"
   ],
   "note": "np.exp and np.log are assumed monotone, np.exp nonnegative and exact at 0 (Lib); the rounded exact functions are an instance"
  },
  {
   "property": "C261",
   "status": "proved",
   "theorems": [
    "SW.Hist.C261_borders",
    "SW.Hist.C261_below",
    "SW.Hist.C261_limits",
    "SW.Hist.C261_few_columns",
    "SW.Hist.C261_default",
    "SW.Hist.C261_consumed",
    "SW.Hist.C261_apart"
   ],
   "note": "the Savitzky-Golay filter itself is an arbitrary function"
  },
  {
   "property": "C262",
   "status": "proved",
   "theorems": [
    "SW.Draw.C262_window",
    "SW.Draw.C262_no_window",
    "SW.Draw.C262_drawstyle",
    "SW.Draw.C262_consumed",
    "SW.Draw.C262_errorbar",
    "SW.Draw.C262_abbreviation"
   ],
   "note": "matplotlib modelled up to alias resolution and repeated keywords"
  },
  {
   "property": "C263",
   "status": "proved",
   "theorems": [
    "SW.Draw.C263_window",
    "SW.Draw.C263_no_wkey",
    "SW.Draw.C263_errorbar",
    "SW.Draw.C263_linestyle"
   ],
   "note": ""
  },
  {
   "property": "C264",
   "status": "proved",
   "theorems": [
    "SW.Draw.C264_raw",
    "SW.Draw.C264_raw_bars",
    "SW.Draw.C264_used",
    "SW.Draw.C264_used_bars",
    "SW.Draw.C264_markevery",
    "SW.Draw.C264_names",
    "SW.Draw.C264_twice",
    "SW.Draw.C264_edge_colour"
   ],
   "note": "matplotlib is modelled as far as it resolves aliases and refuses repeated keywords"
  },
  {
   "property": "C265",
   "status": "proved",
   "theorems": [
    "SW.Draw.C265_fit",
    "SW.Draw.C265_all",
    "SW.Draw.C265_zorder",
    "SW.Draw.C265_raw_style",
    "SW.Draw.C265_used_style"
   ],
   "note": "with windows (the default); the content of the text box is modelled in TexFull"
  },
  {
   "property": "C266",
   "status": "proved",
   "theorems": [
    "SW.Contour.C266_labels",
    "SW.Contour.C266_labels_spiral",
    "SW.Contour.C266_auto",
    "SW.Contour.C266_auto_spiral",
    "SW.Contour.C266_off",
    "SW.Contour.C266_off_spiral",
    "SW.Contour.C266_norm",
    "SW.Contour.C266_opts",
    "SW.Contour.C266_consumed",
    "SW.Contour.C266_used"
   ],
   "note": "which labels matplotlib finds room for is not modelled"
  },
  {
   "property": "C267",
   "status": "proved",
   "theorems": [
    "SW.Contour.C267_plain",
    "SW.Contour.C267_whole",
    "SW.Contour.C267_exponent",
    "SW.Contour.C267_wrong"
   ],
   "note": "Python's repr of a float is any text of the two shapes"
  },
  {
   "property": "C268",
   "status": "proved",
   "theorems": [
    "SW.Contour.C268_points",
    "SW.Contour.C268_inside",
    "SW.Contour.C268_refused",
    "SW.Contour.C268_grid",
    "SW.Contour.C268_empty"
   ],
   "note": "the interpolation itself (scipy) is not modelled"
  },
  {
   "property": "C269",
   "status": "proved",
   "theorems": [
    "SW.Draw.C269_all",
    "SW.Draw.C269_ax",
    "SW.Draw.C269_window",
    "SW.Draw.C269_consumed"
   ],
   "note": ""
  },
  {
   "property": "C270",
   "status": "proved",
   "theorems": [
    "SW.Draw.C270_resid",
    "SW.Draw.C270_ignored",
    "SW.Draw.C270_ax",
    "SW.Draw.C270_last",
    "SW.Draw.C270_first",
    "SW.Draw.C270_stops"
   ],
   "note": ""
  },
  {
   "property": "C271",
   "status": "proved",
   "theorems": [
    "SW.Rnd.C271_power",
    "SW.Rnd.C271_moyal",
    "SW.Rnd.C271_gauss_plus",
    "SW.Rnd.C271_gauss_times",
    "SW.Rnd.C271_gauss_plateau",
    "SW.Rnd.C271_plateau",
    "SW.Rnd.C271_hinge_saturation",
    "SW.Rnd.C271_saturation"
   ],
   "note": ""
  },
  {
   "property": "C272",
   "status": "proved",
   "theorems": [
    "SW.Rnd.C272_hci",
    "SW.Rnd.C272_gse",
    "SW.Rnd.C272_exact",
    "SW.Rnd.C272_symmetric"
   ],
   "note": ""
  },
  {
   "property": "C273",
   "status": "proved",
   "theorems": [
    "SW.Contour.C273_all",
    "SW.Contour.C273_levels",
    "SW.Contour.C273_norm",
    "SW.Contour.C273_limit",
    "SW.Contour.C273_cmap",
    "SW.Contour.C273_style",
    "SW.Contour.C273_label_options",
    "SW.Contour.C273_count",
    "SW.Contour.C273_bar"
   ],
   "note": "smoothing is not modelled"
  },
  {
   "property": "C274",
   "status": "proved",
   "theorems": [
    "SW.Contour.C274_limit",
    "SW.Contour.C274_count",
    "SW.Contour.C274_list"
   ],
   "note": ""
  },
  {
   "property": "C275",
   "status": "proved",
   "theorems": [
    "SW.DocTree.coverage_counts",
    "SW.DocTree.coverage_methods_lexical",
    "SW.DocTree.coverage_missing",
    "SW.DocTree.coverage_nested_class"
   ],
   "note": ""
  },
  {
   "property": "C276",
   "status": "proved",
   "theorems": [
    "SW.DocTree.coverage_range",
    "SW.DocTree.coverage_unlisted",
    "SW.DocTree.report_totals",
    "SW.DocTree.report_priorities"
   ],
   "note": "printed text and its order are not modelled"
  },
  {
   "property": "C277",
   "status": "proved",
   "theorems": [
    "SW.DocTree.baseline_counts",
    "SW.DocTree.baseline_methods_le",
    "SW.DocTree.baseline_format",
    "SW.DocTree.baseline_no_numpy",
    "SW.DocTree.baseline_shares",
    "SW.DocTree.baseline_shares_exact"
   ],
   "note": ""
  },
  {
   "property": "C278",
   "status": "proved",
   "theorems": [
    "SW.DocTree.validate_eq",
    "SW.DocTree.validate_component",
    "SW.DocTree.validate_clean",
    "SW.DocTree.validate_no_section",
    "SW.DocTree.has_section_iff",
    "SW.DocTree.validate_words"
   ],
   "note": "the unit, equation and parameter patterns are oracles; white space restricted to ASCII"
  },
  {
   "property": "C279",
   "status": "proved",
   "theorems": [
    "SW.Rnd.C279_exact",
    "SW.Rnd.C279_accuracy",
    "SW.Rnd.C279_double",
    "SW.Rnd.C279_mono",
    "SW.Rnd.C279_equal",
    "SW.Rnd.C279_side",
    "SW.Rnd.C279_isotropic",
    "SW.Rnd.C279_single",
    "SW.Rnd.C279_isotropic_speed",
    "SW.Rnd.C279_speed",
    "SW.Rnd.C279_reverse"
   ],
   "note": ""
  },
  {
   "property": "C280",
   "status": "proved",
   "theorems": [
    "SW.Rnd.C280_exact",
    "SW.Rnd.C280_reverse",
    "SW.Rnd.C280_rest",
    "SW.Rnd.C280_sign",
    "SW.Rnd.C280_together_violated"
   ],
   "note": "numpy's cube is an oracle"
  },
  {
   "property": "C281",
   "status": "proved",
   "theorems": [
    "SW.Spiral.C281_succeeds",
    "SW.Spiral.C281_no_cells",
    "SW.Spiral.C281_counts",
    "SW.Spiral.C281_limit"
   ],
   "note": "the text of the messages is not modelled"
  },
  {
   "property": "C282",
   "status": "proved",
   "theorems": [
    "SW.Rnd.C282_side",
    "SW.Rnd.C282_bins",
    "SW.Rnd.C282_persists",
    "SW.Rnd.C282_bin_beta",
    "SW.Rnd.C282_accuracy",
    "SW.Rnd.C282_same",
    "SW.Rnd.C282_exact",
    "SW.Rnd.C282_exact_bin"
   ],
   "note": "bins as computed with pandas < 2 (C108)"
  },
  {
   "property": "C283",
   "status": "proved",
   "theorems": [
    "SW.Rnd.C283_symmetric",
    "SW.Rnd.C283_accuracy",
    "SW.Rnd.C283_exact"
   ],
   "note": ""
  },
  {
   "property": "C284",
   "status": "proved",
   "theorems": [
    "SW.Rnd.C284_slow_violated",
    "SW.Rnd.C284_rate_violated",
    "SW.Rnd.C284_library",
    "SW.Rnd.C284_exact",
    "SW.Rnd.C284_exact_both"
   ],
   "note": "proves the violation"
  },
  {
   "property": "C285",
   "status": "proved",
   "theorems": [
    "SW.Rnd.C285_value",
    "SW.Rnd.C285_density",
    "SW.Rnd.C285_velocity",
    "SW.Rnd.C285_speed",
    "SW.Rnd.C285_double",
    "SW.Rnd.C285_reverse",
    "SW.Rnd.C285_rest",
    "SW.Rnd.C285_sign",
    "SW.Rnd.C285_masked",
    "SW.Rnd.C285_unit",
    "SW.Rnd.C285_errors",
    "SW.Rnd.C285_exact",
    "SW.Rnd.C285_together_violated"
   ],
   "note": "numpy's power is an oracle"
  },
  {
   "property": "C286",
   "status": "proved",
   "theorems": [
    "SW.Rnd.C286_parallel",
    "SW.Rnd.C286_perpendicular",
    "SW.Rnd.C286_nonneg",
    "SW.Rnd.C286_reverse",
    "SW.Rnd.C286_unit",
    "SW.Rnd.C286_axis",
    "SW.Rnd.C286_exact",
    "SW.Rnd.C286_aligned_violated"
   ],
   "note": ""
  },
  {
   "property": "C287",
   "status": "proved",
   "theorems": [
    "SW.Rnd.C287_reverse",
    "SW.Rnd.C287_drift",
    "SW.Rnd.C287_together",
    "SW.Rnd.C287_equal",
    "SW.Rnd.C287_density",
    "SW.Rnd.C287_unit",
    "SW.Rnd.C287_coefficient",
    "SW.Rnd.C287_exact"
   ],
   "note": "np.log is an oracle"
  },
  {
   "property": "C288",
   "status": "proved",
   "theorems": [
    "SW.DynImp.C288_clear",
    "SW.DynImp.C288_clean_up",
    "SW.DynImp.C288_individual_state",
    "SW.DynImp.C288_individual",
    "SW.DynImp.C288_found",
    "SW.DynImp.C288_counts",
    "SW.DynImp.C288_successful",
    "SW.DynImp.C288_sequential",
    "SW.DynImp.C288_sequential_errors",
    "SW.DynImp.C288_orders_fresh",
    "SW.DynImp.C288_orders",
    "SW.DynImp.C288_pairs",
    "SW.DynImp.C288_pairs_length",
    "SW.DynImp.C288_cross",
    "SW.DynImp.C288_cross_counts",
    "SW.DynImp.C288_report",
    "SW.DynImp.C288_result"
   ],
   "note": "the interpreter is a parameter"
  },
  {
   "property": "C289",
   "status": "proved",
   "theorems": [
    "SW.DynImp.C289_discover",
    "SW.DynImp.C289_names",
    "SW.DynImp.C289_verdict",
    "SW.DynImp.C289_cross_violated",
    "SW.DynImp.C289_orders_violated",
    "SW.DynImp.C289_tests_violated",
    "SW.DynImp.C289_missing_name_violated",
    "SW.DynImp.C289_prefix_violated",
    "SW.DynImp.C289_argument_violated"
   ],
   "note": "proves the violations"
  },
  {
   "property": "C290",
   "status": "proved",
   "theorems": [
    "SW.Conf.C290_timeout",
    "SW.Conf.C290_dry_run",
    "SW.Conf.C290_again",
    "SW.Conf.C290_enabled",
    "SW.Conf.C290_feedstock",
    "SW.Conf.C290_source",
    "SW.Conf.C290_source_value",
    "SW.Conf.C290_json",
    "SW.Conf.C290_token_violated",
    "SW.Conf.C290_pypi_violated",
    "SW.Conf.C290_debug_violated",
    "SW.Conf.C290_hash_violated"
   ],
   "note": "int() is an oracle; proves the violations"
  },
  {
   "property": "C291",
   "status": "proved",
   "theorems": [
    "SW.Conf.C291_report",
    "SW.Conf.C291_rate",
    "SW.Conf.C291_key_error",
    "SW.Conf.C291_missing",
    "SW.Conf.C291_criteria",
    "SW.Conf.C291_no_tests_violated",
    "SW.Conf.C291_results_violated",
    "SW.Conf.C291_summary_violated",
    "SW.Conf.C291_broken_violated"
   ],
   "note": "exact rate; proves the violations"
  },
  {
   "property": "C292",
   "status": "proved",
   "theorems": [
    "SW.Rnd.C292_exponent",
    "SW.Rnd.C292_accuracy",
    "SW.Rnd.C292_exact"
   ],
   "note": "np.log is an oracle with a given error"
  },
  {
   "property": "C293",
   "status": "proved",
   "theorems": [
    "SW.DocCount.C293_count",
    "SW.DocCount.C293_examples",
    "SW.DocCount.C293_order",
    "SW.DocCount.C293_add",
    "SW.DocCount.C293_merge_violated"
   ],
   "note": ""
  }
 ]
}