import re
CLAIMS = {}
def C(i, status, names, note=""):
    CLAIMS[i] = (status, ["SW." + n for n in names.split()], note)

C("C01","proved","C01_type_error C01_value_error C01_canonical C01_pieces_unique C01_order_args C01_order_plus")
C("C02","proved","C02_empty_name C02_available C02_unavailable C02_malformed C02_empty_name_accepted")
C("C03","proved","C03_rejected C03_accepted C03_comma_form_fails C03_ions_refused")
C("C04","proved","C04_drop_species C04_drop_invalid C04_drop_aux C04_drop_twice")
C("C05","proved","C05_stored_columns C05_refused C05_ion_refused")
C("C06","proved","C06_scalar_thermal_speed")
C("C07","proved","C07_missing_component_fabricates","proves the violation: the code fabricates the stated numbers")
C("C08","proved","C08_save_load C08_save_load_core C08_spacecraft_needs_identity")
C("C09","proved","C09_aux_accepted C09_sc_accepted C09_atomic C09_history C09_errors")
C("C10","proved","C10_sum C10_measured C10_nan C10_order C10_columns")
C("C11","proved","C11_value C11_protons C11_order C11_additive")
C("C12","proved","C12_momentum C12_single C12_order C12_projected")
C("C13","proved","C13_general C13_biased","proves the violation")
C("C14","proved","C14_antisymmetric C14_additive C14_self")
C("C15","proved","C15_additive C15_value C15_scalar")
C("C16","proved","C16_value C16_additive C16_speed_ratio C16_nan C16_magnetic_pressure")
C("C17","proved","C17_value C17_single")
C("C18","proved","C18_value C18_zero_iff C18_galilean C18_two C18_single")
C("C19","proved","C19_three_species_crash C19_two","proves the violation")
C("C20","proved","C20_alfven C20_sound C20_ratio C20_monotone")
C("C21","proved","C21_beta C21_sum C21_isotropic C21_caani C21_pdynamic")
C("C22","proved","C22_lnlambda_symmetric C22_balance","symmetry of nuc follows from the balance theorem's two-species rate conjunct")
C("C23","proved","C23_errors C23_value")
C("C24","proved","C24_vdf_ratio")
C("C25","proved","C25_errors C25_neutral C25_masked C25_temperature")
C("C26","proved","C26_sum C26_comoving C26_odd C26_single")
C("C27","proved","C27_unusable","proves the violation")
C("C28","proved","C28_value C28_adiabatic")
C("C29","proved","C29_mag_rho C29_mag_nan C29_longitude")
C("C30","proved","C30_exchanged C30_pole","proves the violation")
C("C31","proved","C31_unit_vector C31_unit_vector_zero C31_project C31_scale_invariant")
C("C32","proved","C32_cos_theta C32_extreme")
C("C33","proved","C33_call_fails","proves the violation")
C("C91","proved","C91_default_load_needs_attachments C91_default_load_needs_aux C91_missing_keys","proves the violation")
C("C92","proved","C92_save_keeps_stale_aux C92_save_keeps_stale_spacecraft C92_load_attaches_stale","proves the violation")
C("C93","proved","C93_tensor_set_data_ignored C93_invalid_rejected","proves the violation")
C("C94","proved","C94_missing_becomes_zero C94_anisotropy_infinite","proves the violation")
C("C95","proved","C95_opposite_charges_nan","proves the violation")
C("C34","proved","C34_frame_name C34_hci C34_gse C34_other_frame")
C("C35","proved","C35_errors C35_ratio C35_hydrogen C35_reciprocal_chain C35_hydrogen_agrees C35_lookup")
C("C96","proved","C96_missing_position_is_zero C96_partial_position","proves the violation")
C("C36","proved","C36_identities")
C("C37","proved","C37_bounded")
C("C38","proved","C38_species C38_idempotent")
C("C39","proved","C39_value C39_missing C39_mean_free C39_shift C39_constant C39_local C39_stored C39_window C39_defaults")
C("C97","proved","C97_missing_component C97_all_missing","proves the violation")
C("C98","proved","C98_rectified C98_polarity C98_stored")
C("C40","proved","C40_selection")
C("C41","proved","C41_construction C41_covariance_rejected")
C("C42","proved","C42_insufficient C42_returned")
C("C43","proved","C43_history C43_failed_call")
C("C44","proved","C44_residuals C44_percent C44_rsq")
C("C45","proved","C45_unweighted C45_weighted")
C("C99","proved","C99_covariance_failure","proves the violation")
C("C46","proved","C46_partition C46_outcome")
C("C47","proved","C47_parallel_ignores_limits C47_different_data C47_agree_without_limits","proves the violation")
C("C48","proved","C48_crash","proves the violation")
C("C49","proved","C49_failures_hidden C49_popt_crashes","proves the violation")
C("C50","proved","C50_intercepts C50_horizontal")
C("C51","proved","C51_wrong_sign","proves the violation")
C("C52","proved","C52_hingeMin C52_hingeMax C52_hingeSaturation C52_hingeAtPoint")
C("C53","proved","C53_twoLine C53_saturation C53_angles_agree")
C("C54","proved","C54_heavySide C54_composite")
C("C55","proved","C55_gaussian C55_normalized C55_ln_shape C55_normal_parameters")
C("C56","proved","C56_cdf C56_forms")
C("C100","proved","C100_no_parent_attribute","proves the violation")
C("C101","proved","C101_moyal_symmetric C101_reported_formula","proves the violation")
C("C102","proved","C102_few_below C102_nan_guess C102_hingeAtPoint C102_hingeMin","proves the violation")
C("C103","proved","C103_ignored_guesses","proves the violation")
C("C104","proved","C104_hingeAtPoint_flat C104_saturation_flat","proves the violation")
C("C105","proved","C105_gaussian_guess")
C("C57","proved","C57_escapes C57_annotation_balanced C57_additional_list C57_string_unchecked","the unchecked string is proved as a violation")
C("C58","proved","C58_popt C58_history")
C("C106","proved","C106_argument_mutated Tex.C106_partial_mutation","proves the violation")
C("C107","proved","C107_rename C107_translate C107_collision Tex.C107_missing")
C("C59","proved","C59_exact_swap C59_when C59_ordered C59_again Swap.C59_missing","equal label lists of p1 and p2; the duplicated record column of a second call is proved as a violation")
C("C60","proved","C60_bins C60_growth C60_threshold Insta.C60_published")
C("C108","proved","C108_pandas2 C108_contour_kinds","proves the violation")
C("C109","proved","C109_missing_is_stable C109_legend","proves the violation")
C("C61","proved","Cache.C61_session Cache.C61_history")
C("C62","proved","Cache.C62_crash_wedges Cache.C62_first_download","proves the violation")
C("C63","proved","Cache.C63_age","proves the violation")
C("C110","proved","Cache.C110_long_lived_loader C110_downloads","proves the violation")
C("C111","proved","Cache.C111_digits_in_path Cache.C111_clock","proves the violation")
C("C64","proved","Act.C64_no_extrapolation Act.C64_unsorted_leaks Act.C64_overshoot Act.C64_refused","spline is an arbitrary interpolating function; overshoot for one cubic through four samples")
C("C65","proved","Act.C65_tiling Act.C65_cut C65_six_years")
C("C66","proved","Act.C66_bands Act.C66_maximum_uncovered Act.C66_errors")
C("C67","proved","Act.C67_max Act.C67_feature Act.C67_zscore Act.C67_degenerate")
C("C68","proved","Act.C68_separation Act.C68_chain_loses Act.C68_named C68_trim")
C("C112","proved","Act.C112_default_kind_fails","proves the violation")
C("C113","proved","Act.C113_edges")
C("C114","proved","Act.C114_labels Act.C114_documented_mean")
C("C115","proved","Act.C115_default_threshold","proves the violation")
C("C116","proved","Act.C116_group Act.C116_one_per_excursion Act.C116_two_sample_excursion Act.C116_one_sample_excursion","series without missing values")
C("C117","proved","Act.C117_first_maximum")
C("C118","proved","Act.C118_std_error","proves the violation")
C("C119","proved","Act.C119_bands Act.C119_overlap_fails")
C("C120","proved","Act.C120_unique_times Act.C120_order_unchecked C120_rejected","")

C("C69","proved","Icme.C69_contains")
C("C70","proved","Icme.C70_interval_end Icme.C70_range Icme.C70_durations")
C("C71","proved","Icme.C71_filter Icme.C71_repeat Icme.C71_spelling_lost Icme.C71_missing_name")
C("C72","proved","Icme.C72_load Icme.C72_history")
C("C121","proved","Icme.C121_queries")
C("C122","proved","Icme.C122_truncated_cache","proves the violation")
C("C123","proved","Icme.C123_summary","duration statistics not modelled")

C("C73","proved","Hist.C73_one_bin Hist.C73_extremes Hist.C73_minimum_lost Hist.C73_explicit_edges Hist.C73_constant_data")
C("C74","proved","Hist.C74_counts Hist.C74_clim Hist.C74_counts2 Hist.C74_data2")
C("C75","proved","Hist.C75_linear Hist.C75_log Hist.C75_empty Hist.C76_density Hist.C76_density_log")
C("C76","proved","Hist.C76_max_norms Hist.C76_zero_column Hist.C76_conditional_densities Hist.C76_density")
C("C77","proved","Hist.C77_exact_1d Hist.C77_2d Hist.C77_hidden_marked Hist.C77_threshold")
C("C78","proved","Hist.C78_cdf Hist.C78_refuses")
C("C124","proved","Hist.C124_collapse Hist.C124_default","proves the violation")
C("C125","proved","Hist.C125_axnorm")
C("C126","proved","Hist.C126_border")
C("C127","proved","Hist.C127_take Hist.C127_once")
C("C128","proved","Hist.C128_clip_keeps Hist.C128_one_sided Hist.C128_alim")
C("C129","proved","Hist.C129_guard","proves the violation")
C("C130","proved","Hist.C130_log_axis")
C("C79","proved","Spiral.C79_partition Spiral.C79_bin_number")
C("C80","proved","Spiral.C80_limit Spiral.C80_terminates_iff")
C("C81","proved","Spiral.C81_extend Spiral.C81_all_data_inside Spiral.C81_every_datum_binned")
C("C131","proved","Spiral.C131_outside_fails Spiral.C131_nonfinite Spiral.C131_inside","proves the violation")
C("C132","proved","Spiral.C132_caller_array","proves the violation")
C("C133","proved","Spiral.C133_size_filter Spiral.C133_density_filter Spiral.C133_refused")
C("C82","proved","PlotTools.C82_grid")
C("C83","proved","PlotTools.C83_panels PlotTools.C83_bar PlotTools.C83_location PlotTools.C83_shape")
C("C84","proved","PlotTools.C84_filter PlotTools.C84_plain PlotTools.C84_local PlotTools.C84_integer","the kernel is any non-negative one with positive centre weight")
C("C134","proved","PlotTools.C134_joint_legend")
C("C135","proved","PlotTools.C135_sample PlotTools.C135_excludes PlotTools.C135_one_missing")
C("C85","proved","Labels.C85_order Labels.C85_trichotomy")
C("C86","proved","Labels.C86_units Labels.C86_error_units Labels.C86_unknown Labels.C86_angular Labels.C86_table")
C("C87","proved","Labels.C87_ion Labels.C87_int_charge Labels.C87_ratio C87_charge_text")
C("C136","proved","Labels.C136_species Labels.sep_plus Labels.C136_unknown Labels.C136_text")
C("C137","proved","Labels.C137_description Labels.C137_mutable_key","proves the violation")
C("C138","proved","Labels.C138_text_constituents Labels.C138_function_path","proves the violation")
C("C139","proved","Labels.C139_absolute")
C("C140","proved","Labels.C140_comma Labels.C140_lt_gt Labels.C140_structure","proves the violation")
C("C141","proved","Labels.C141_units Labels.C141_dimensionless Labels.C141_patterns Labels.C141_cleanup Labels.C141_signs")
C("C142","proved","Labels.C142_frequency Labels.C142_interval","proves the violation")
C("C143","proved","Labels.C143_axnorm Labels.C143_distance Labels.C143_distance_text")
C("C88","proved","Scripts.C88_components Scripts.C88_forward Scripts.C88_tags Scripts.C88_created Scripts.pkgLt_iff Scripts.C88_read Scripts.C88_start Scripts.C88_refused C88_create_tag")
C("C89","proved","Scripts.C89_stops Scripts.C89_sleeps Scripts.C89_found Scripts.C89_exit Scripts.C89_normalized Scripts.C89_codes")
C("C90","proved","Scripts.C90_translate Scripts.C90_marker")
C("C144","proved","Scripts.C144_latest_is_stale Scripts.C144_patch_stuck","proves the violation")
C("C145","proved","Scripts.C145_no_final_check Scripts.C145_zero_interval Scripts.C145_negative_interval Scripts.C145_spelling","proves the violation")
C("C146","proved","Scripts.C146_environment Scripts.C146_options")
C("C147","proved","Scripts.C147_recipe Scripts.C147_silent")
C("C148","proved","Scripts.C148_update Scripts.C148_ignored")
C("C149","proved","Scripts.C149_closed Scripts.C149_opened Scripts.C149_prefix Scripts.C149_no_file")
C("C150","proved","Scripts.C150_rows Scripts.C150_names Scripts.C150_other_operators")
C("C151","proved","Scripts.C151_ready Scripts.C151_changelog Scripts.C151_last_section")

C("C152","proved","C152_twoLine C152_saturation C152_hinge C152_hingeAtPoint C152_heavySide C152_heavySide_exact C152_sufficient")
C("C153","proved","C153_amplitude","proves the violation")
C("C154","proved","C154_set_labels C154_history Plt.C154_log_history C154_new_scatter")
C("C155","proved","C155_text_labels C155_stale C155_scale_wrong Plt.C155_explicit Plt.C155_explicit_scales","the last two prove the violation")
C("C156","proved","C156_in_sync C156_constructed C156_shared C156_word_refused Plt.C156_accepts")
C("C157","proved","C157_injective C157_collisions C157_new_hist2d_count C157_new_hist2d C157_new_hist1d C157_new_hist1d_count C157_new_scatter C157_new_spiral")
C("C158","proved","C158_legs C158_refused C158_cell")
C("C159","proved","C159_max_norms C159_density C159_density_wrong C159_density_uniform C159_limits_wrong C159_conditional")
C("C160","proved","C160_own_axes C160_named C160_shared_kwargs C160_orbit_cbar C160_kind C160_mirrored C160_orbit_scale")
C("C161","proved","C161_points C161_coloured")
C("C162","proved","C162_marked C162_covers_and_overshoots C162_refused")
C("C163","proved","C163_untouched C163_limited C163_counts_wrong C163_defaults")
C("C164","proved","C164_labels C164_derived C164_heat_flux C164_entropy C164_defaults","proves the violation")
C("C165","proved","C165_tables C165_polytropic")
C("C166","proved","C166_path C166_y_scale C166_distinct C166_history C166_refused","proves the violation")
C("C167","proved","C167_few C167_spacing C167_monotone")
C("C168","proved","C168_residuals C168_agree C168_kinds C168_unknown C168_style C168_label_both C168_label_single C168_dict C168_label_default","proves the violations")
C("C169","proved","C169_window C169_unweighted C169_gap")
C("C170","proved","C170_symmetric C170_inverse C170_pseudo C170_sigma C170_rescale","SciPy's svd is a hypothesis (IsSVD)")
C("C171","proved","C171_history C171_failed C171_stale","proves the violations")
C("C172","proved","C172_sound C172_found C172_once C172_missed C172_terminates","proves the violation")
C("C173","proved","C173_relative C173_relative_init C173_absolute C173_subpackage C173_edges C173_simple_finds_nothing","proves the violations")
C("C174","proved","C174_reported C174_small_value C174_zero_uncertainty C174_nonfinite","proves the violation")
C("C175","proved","C175_line C175_lines C175_plain_kept C175_formula_damaged","proves the violation")
C("C176","proved","C176_decimal C176_exponent C176_value_lost C176_line C176_parameter","proves the violation; str(float(t)) is the shortest decimal (hypothesis)")
C("C177","proved","C177_set C177_first C177_not_repeatable","proves the violation")
C("C178","proved","C178_moments C178_base_ten C178_agree","proves the violated documentation")
C("C179","proved","C179_times C179_times_plus C179_none_beyond C179_plus C179_plus_origin","proves the violation")
C("C180","proved","C180_exact C180_unit C180_few C180_intercepts lsq_nonvacuous","proves the violation; np.polyfit is a least-squares slope (hypothesis, shown satisfiable)")
C("C181","proved","C181_exponential C181_exponential_exact C181_cdf C181_power C181_moyal C181_refused","proves the violations")
C("C182","proved","C182_axes C182_two_edges C182_own","proves the violation")
C("C183","proved","C183_marginal C183_hidden C183_dependent C183_axis","proves the violations")
C("C184","proved","C184_rectangle C184_centre C184_grid C184_levels C184_default_levels C184_density_levels C184_curve","proves the violation")
C("C185","proved","C185_values C185_local C185_max","")
C("C186","proved","C186_run C186_cached C186_first_read C186_run_after_nssn C186_interpolated C186_band C186_norm_by C186_no_column","proves the violations")
C("C187","proved","C187_lisird C187_colorbar C187_ties C187_ticks","proves the violations")
C("C188","proved","C188_names C188_writes C188_refused C188_history C188_kept C188_subplots","proves the violations")
C("C189","proved","C189_selecting C189_summary C189_right_iff C189_double_count C189_construct","proves the violations")
C("C190","proved","C190_cell C190_conserved C190_mean_between C190_constant C190_default_mean C190_data","proves the violations")
C("C191","proved","C191_thresholds C191_rectangle C191_position C191_norm C191_alpha","proves the violations")
C("C192","proved","C192_start C192_start_value C192_lm_bounds C192_args C192_guess_needed C192_bounds_by_name C192_bound_missing C192_wellposed C192_lm_alone C192_wrong_length C192_zero_weight","proves the violations")
C("C193","proved","C193_least_squares C193_outlier C193_units C193_unit_dependent","proves the violations")
C("C194","proved","C194_trend C194_refused C194_label_sound C194_label_unsound C194_drawn C194_drawn_log","proves the violations")
C("C195","proved","C195_single C195_pair C195_self C195_commas C195_unknown C195_index C195_boost_pair C195_boost_single C195_alfven C195_defaults","")
C("C196","proved","C196_agree C196_missing C196_anisotropy_missing C196_sound C196_sound_empty C196_no_scalar C196_eq","proves the violations")
C("C197","proved","C197_balanced C197_thin_space","proves the violation")
C("C198","proved","C198_text C198_default C198_components C198_debris","proves the violations")
C("C199","proved","C199_equal C199_labels C199_species C199_collisions","proves the violations")
C("C200","proved","C200_path C200_case C200_percent C200_species C200_text C200_epoch C200_date","proves the violations")
C("C201","proved","C201_ssn C201_ssn_unique C201_xcorr_errors C201_xcorr_clean C201_xcorr_text C201_ambiguous C201_manual C201_manual_text C201_count","proves the violations")
C("C202","proved","C202_endless C202_found C202_copy C202_access C202_hasattr C202_unset C202_shadow","proves the violations")
C("C203","proved","C203_electrons C203_histories C203_set_data C203_refused C203_half C203_duplicate","proves the violations")
C("C204","proved","C204_mean C204_first","proves the violation")
C("C205","proved","C205_extremum C205_crossings C205_edges C205_complete C205_trusted C205_dates C205_units C205_names C205_early","proves the violation")
C("C206","proved","C206_elements C206_lookup C206_ratio C206_most C206_hydrogen C206_comment","proves the violations")
C("C207","proved","C207_cycles C207_cut C207_dates C207_shipped C207_default","")
C("C208","proved","C208_tables C208_local C208_keyError C208_free C208_com C208_proj C208_pairs C208_nc C208_electrons C208_sums C208_pdynamic_proj","proves the violation")
C("C209","proved","C209_report C209_not_the_start C209_no_guess C209_line C209_dof C209_default_start C209_before","proves the violations")
C("C210","proved","C210_keys C210_documented C210_download C210_dates C210_construct C210_plot","proves the violations")
C("C211","proved","C211_cycle C211_labels C211_shipped C211_minimum","proves the violation")
C("C212","proved","C212_text C212_stripped C212_exponent C212_exponent_stripped C212_paper C212_relative_error C212_failed C212_available C212_spare_uncertainty C212_statistics","proves the violations")
C("C213","proved","C213_lines C213_relative_error C213_failed_formula","proves the violations")
C("C214","proved","C214_lines C214_gaussians C214_exponentials C214_powerLaws C214_steps C214_hinges C214_wrong C214_shown","proves the violations of GaussianLn and Moyal")
C("C215","proved","C215_refresh C215_new C215_stale C215_mixed C215_setters C215_cycle C215_frequency_path","proves the violations")
C("C216","proved","C216_drift C216_collisions C216_scalars C216_velocity C216_invariant C216_electrons C216_projected C216_same_ion C216_vdf_unbounded C216_missing","proves the violations")
C("C217","proved","C217_vectors C217_scalars C217_projected C217_electrons C217_vector_algebra","")
C("C218","proved","C218_extensive C218_intensive C218_powers C218_drifting C218_electrons C218_lnlambda","")
C("C219","proved","C219_thermal C219_field C219_polarity C219_anisotropy","")
C("C220","proved","Repro.C220_all_or_nothing Repro.C220_settled Repro.C220_withheld Repro.C220_raises Repro.C220_dirty_is_real Repro.C220_not_all_changes Repro.C220_race Repro.C220_installed Repro.C220_dependencies Repro.C220_total Repro.C220_citation Repro.C220_citation_identifies Repro.C220_printed","not_all_changes, race and installed state what a user would expect and the code does not do")
C("C221","proved","C221_axes C221_reversal C221_rectified C221_units C221_density C221_clock C221_wave","")
C("C222","proved","C222_rows C222_reindexed C222_offset C222_velocity_own C222_no_velocity C222_counted C222_counted_depends","no_velocity and counted_depends state what a user would expect and the code does not do")
C("C223","proved","Insta.C223_23 Insta.C223_34_cold Insta.C223_34_hot Insta.C223_34_violated Insta.C223_34_violated_low Insta.C223_between_gone","bins as computed with pandas < 2 (C108); 34_violated and 34_violated_low state what a user would expect and the fits do not do")
C("C224","proved","Insta.C224_names Insta.C224_colours Insta.C224_mpl39 Insta.C224_row","mpl39 states the violated part")
C("C225","proved","C225_lines C225_hinges C225_peaks C225_composites C225_decays C225_saturation C225_hingeSaturation C225_guess_lines C225_guess_two C225_guess_hinge C225_guess_point C225_guess_step C225_guess_peaks C225_guess_composites C225_guess_saturation C225_guess_other C225_step_violated C225_threshold_violated C225_angle_violated C225_guess_point_violated","the *_violated theorems and guess_other state what a user would expect and the code does not do; numpy.polyfit's slope is assumed to convert")
C("C226","proved","C226_curves C226_at_zero C226_guess_lines C226_guess_step C226_guess_peaks C226_guess_composites C226_guess_intercepts_violated C226_guess_cut_violated","the *_violated theorems state what a user would expect and the code does not do")
C("C227","proved","C227_selection C227_guesses C227_objective C227_statistics C227_line_violated C227_point_violated","the *_violated theorems state what a user would expect and the code does not do; sums are exact (no rounding)")
C("C228","proved","Hist.C228_repeated Hist.C228_distinct Hist.C228_rows Hist.C228_order Hist.C228_repeated_y Hist.C228_counts Hist.C228_rows2 Hist.C228_repeated2","repeated states what a user would expect to work and does not; empty x and y together are not modelled")
C("C229","proved","Hist.C229_counts Hist.C229_total Hist.C229_density","density states the violated part")
C("C230","proved","Hist.C230_cells Hist.C230_labels","the removal of _bimax from the label is any function of the text")
C("C231","proved","Box.C231_tensor Box.C231_vector Box.C231_magnitude_violated Box.C231_vector_mag Box.C231_repeated_column","magnitude_violated and repeated_column state what a user would expect and the code does not do; the ValueError is pandas' length check of a dictionary operand")
C("C232","proved","Box.C232_project Box.C232_cos Box.C232_missing Box.C232_other","C232_missing states the violated part")
C("C233","proved","C233_totals C233_flows C233_temperature","C233_temperature states the violated part")
C("C234","proved","C234_electrons","the last two conjuncts state when the thermal speed is kept and how it changes")
C("C235","proved","Act.C235_table Act.C235_order Act.C235_twice Act.C235_noon","C235_twice and C235_noon state the violated parts")
C("C236","proved","Labels.C236_listing Labels.C236_removed Labels.C236_empty Labels.C236_classes Labels.C236_measurements Labels.C236_star","C236_removed, the last part of C236_classes, C236_measurements and C236_star state the violated parts")
C("C237","proved","Hist.C237_order","")
C("C238","proved","Hist.C238_join Hist.C238_default","C238_default states the violated part")
C("C239","proved","Hist.C239_coarser","")
C("C240","proved","Hist.C240_marginal Hist.C240_units","")

C("C241","proved","Plans.C241_all Plans.C241_growing Plans.C241_missed","C241_missed states the violated part")
C("C242","proved","Plans.C242_adds Plans.C242_once Plans.C242_complete Plans.C242_twice","C242_twice states the violated part; the titles are those at the start of the session (C241)")
C("C243","proved","Plans.C243_last Plans.C243_shape Plans.C243_repeat Plans.C243_unnamed Plans.C243_directory","C243_last also says what is violated")
C("C244","proved","Plans.C244_read Plans.C244_plain Plans.C244_errors Plans.C244_cut Plans.C244_remote Plans.C244_remote_parts Plans.C244_remote_slash","C244_cut and C244_remote_slash state the violated parts")

C("C245","proved","Sc.C245_accepts Sc.C245_errors Sc.C245_reads Sc.C245_again Sc.C245_others","the KeyError parts of C245_reads for incomplete measurements are the violated part")
C("C246","proved","Sc.C246_history","")

C("C247","proved","Recipe.C247_update Recipe.C247_read Recipe.C247_main Recipe.C247_compare","C247_compare also states the violated part")
C("C248","proved","Recipe.C248_read Recipe.C248_extras Recipe.C248_none","C248_extras states the violated part")
C("C249","proved","DocS.C249_tag DocS.C249_not_master DocS.C249_release","C249_not_master states the violated part; answers of git and gh are inputs")
C("C250","proved","DocS.C250_file DocS.C250_directory DocS.C250_targeted DocS.C250_ci","C250_directory and C250_targeted also state the violated parts")
C("C251","proved","DocS.C251_blocks DocS.C251_again","C251_again also states the violated part")

C("C252","proved","Rnd.C252_energy Rnd.C252_range Rnd.C252_reverse Rnd.C252_wave Rnd.C252_ratio Rnd.C252_unit Rnd.C252_accuracy Rnd.C252_exact Rnd.C252_budget_violated","C252_exact gives the formulas without rounding; C252_budget_violated states the violated part; a quotient by a vanishing energy is NaN in numpy and outside the claim")
C("C253","proved","Rnd.C253_nonneg Rnd.C253_component Rnd.C253_unit Rnd.C253_axis Rnd.C253_plane Rnd.C253_reverse Rnd.C253_scale Rnd.C253_accuracy Rnd.C253_exact Rnd.C253_cosine_violated Rnd.binary_nearest","C253_cosine_violated states the violated part; binary_nearest says that the format rounds to nearest; the zero vector has no unit vector (NaN in numpy)")
C("C254","proved","Rnd.C254_density Rnd.C254_accuracy Rnd.C254_two Rnd.C254_order_violated Rnd.C254_flow Rnd.C254_flow_zero Rnd.C254_exact","C254_order_violated states the violated part")
C("C255","proved","Rnd.C255_feature Rnd.C255_feature_range Rnd.C255_max Rnd.C255_position Rnd.C255_rsq Rnd.C255_mean Rnd.C255_chisq Rnd.C255_exact","")
C("C256","proved","Rnd.C256_partition Rnd.C256_limit Rnd.C256_terminates_iff Rnd.C256_last_edge","")
C("C257","proved","Rnd.C257_density Rnd.C257_pressure Rnd.C257_temperature Rnd.C257_beta Rnd.C257_sound Rnd.C257_alfven Rnd.C257_entropy Rnd.C257_anisotropy Rnd.C257_sum Rnd.C257_double","non-integer powers are assumed accurate to j errors (PowerOk); the correctly rounded power is an instance")
C("C258","proved","Rnd.C258_accuracy Rnd.C258_double Rnd.C258_sum Rnd.C258_reverse Rnd.C258_rest Rnd.C258_sign Rnd.C258_pressure Rnd.C258_same_violated","")
C("C259","proved","Rnd.C259_density1 Rnd.C259_density2 Rnd.C259_column Rnd.C259_row Rnd.C259_empty Rnd.C259_order Rnd.C257_double","")
C("C260","proved","Rnd.C260_gaussian Rnd.C260_gaussian_normalized Rnd.C260_gaussian_ln Rnd.C260_exponential Rnd.C260_exponential_cdf Rnd.C260_line Rnd.C260_two_lines Rnd.C260_hinge_min Rnd.C260_hinge_max Rnd.C260_hinge_point Rnd.C260_hinge_meets Rnd.C260_hinge_near Rnd.C260_step Rnd.C260_hinge_violated","np.exp and np.log are assumed monotone, np.exp nonnegative and exact at 0 (Lib); the rounded exact functions are an instance")
C("C261","proved","Hist.C261_borders Hist.C261_below Hist.C261_limits Hist.C261_few_columns Hist.C261_default Hist.C261_consumed Hist.C261_apart","the Savitzky-Golay filter itself is an arbitrary function")
C("C262","proved","Draw.C262_window Draw.C262_no_window Draw.C262_drawstyle Draw.C262_consumed Draw.C262_errorbar Draw.C262_abbreviation","matplotlib modelled up to alias resolution and repeated keywords")
C("C263","proved","Draw.C263_window Draw.C263_no_wkey Draw.C263_errorbar Draw.C263_linestyle","")
C("C264","proved","Draw.C264_raw Draw.C264_raw_bars Draw.C264_used Draw.C264_used_bars Draw.C264_markevery Draw.C264_names Draw.C264_twice Draw.C264_edge_colour","matplotlib is modelled as far as it resolves aliases and refuses repeated keywords")
C("C265","proved","Draw.C265_fit Draw.C265_all Draw.C265_zorder Draw.C265_raw_style Draw.C265_used_style","with windows (the default); the content of the text box is modelled in TexFull")
C("C266","proved","Contour.C266_labels Contour.C266_labels_spiral Contour.C266_auto Contour.C266_auto_spiral Contour.C266_off Contour.C266_off_spiral Contour.C266_norm Contour.C266_opts Contour.C266_consumed Contour.C266_used","which labels matplotlib finds room for is not modelled")
C("C267","proved","Contour.C267_plain Contour.C267_whole Contour.C267_exponent Contour.C267_wrong","Python's repr of a float is any text of the two shapes")
C("C268","proved","Contour.C268_points Contour.C268_inside Contour.C268_refused Contour.C268_grid Contour.C268_empty","the interpolation itself (scipy) is not modelled")
C("C269","proved","Draw.C269_all Draw.C269_ax Draw.C269_window Draw.C269_consumed","")
C("C270","proved","Draw.C270_resid Draw.C270_ignored Draw.C270_ax Draw.C270_last Draw.C270_first Draw.C270_stops","")
C("C271","proved","Rnd.C271_power Rnd.C271_moyal Rnd.C271_gauss_plus Rnd.C271_gauss_times Rnd.C271_gauss_plateau Rnd.C271_plateau Rnd.C271_hinge_saturation Rnd.C271_saturation","")
C("C272","proved","Rnd.C272_hci Rnd.C272_gse Rnd.C272_exact Rnd.C272_symmetric","")
C("C273","proved","Contour.C273_all Contour.C273_levels Contour.C273_norm Contour.C273_limit Contour.C273_cmap Contour.C273_style Contour.C273_label_options Contour.C273_count Contour.C273_bar","smoothing is not modelled")
C("C274","proved","Contour.C274_limit Contour.C274_count Contour.C274_list","")
C("C275","proved","DocTree.coverage_counts DocTree.coverage_methods_lexical DocTree.coverage_missing DocTree.coverage_nested_class","")
C("C276","proved","DocTree.coverage_range DocTree.coverage_unlisted DocTree.report_totals DocTree.report_priorities","printed text and its order are not modelled")
C("C277","proved","DocTree.baseline_counts DocTree.baseline_methods_le DocTree.baseline_format DocTree.baseline_no_numpy DocTree.baseline_shares DocTree.baseline_shares_exact","")
C("C278","proved","DocTree.validate_eq DocTree.validate_component DocTree.validate_clean DocTree.validate_no_section DocTree.has_section_iff DocTree.validate_words","the unit, equation and parameter patterns are oracles; white space restricted to ASCII")
C("C279","proved","Rnd.C279_exact Rnd.C279_accuracy Rnd.C279_double Rnd.C279_mono Rnd.C279_equal Rnd.C279_side Rnd.C279_isotropic Rnd.C279_single Rnd.C279_isotropic_speed Rnd.C279_speed Rnd.C279_reverse","")
C("C280","proved","Rnd.C280_exact Rnd.C280_reverse Rnd.C280_rest Rnd.C280_sign Rnd.C280_together_violated","numpy's cube is an oracle")
C("C281","proved","Spiral.C281_succeeds Spiral.C281_no_cells Spiral.C281_counts Spiral.C281_limit","the text of the messages is not modelled")
C("C282","proved","Rnd.C282_side Rnd.C282_bins Rnd.C282_persists Rnd.C282_bin_beta Rnd.C282_accuracy Rnd.C282_same Rnd.C282_exact Rnd.C282_exact_bin","bins as computed with pandas < 2 (C108)")
C("C283","proved","Rnd.C283_symmetric Rnd.C283_accuracy Rnd.C283_exact","")
C("C284","proved","Rnd.C284_slow_violated Rnd.C284_rate_violated Rnd.C284_library Rnd.C284_exact Rnd.C284_exact_both","proves the violation")
C("C285","proved","Rnd.C285_value Rnd.C285_density Rnd.C285_velocity Rnd.C285_speed Rnd.C285_double Rnd.C285_reverse Rnd.C285_rest Rnd.C285_sign Rnd.C285_masked Rnd.C285_unit Rnd.C285_errors Rnd.C285_exact Rnd.C285_together_violated","numpy's power is an oracle")
C("C286","proved","Rnd.C286_parallel Rnd.C286_perpendicular Rnd.C286_nonneg Rnd.C286_reverse Rnd.C286_unit Rnd.C286_axis Rnd.C286_exact Rnd.C286_aligned_violated","")
C("C287","proved","Rnd.C287_reverse Rnd.C287_drift Rnd.C287_together Rnd.C287_equal Rnd.C287_density Rnd.C287_unit Rnd.C287_coefficient Rnd.C287_exact","np.log is an oracle")
C("C288","proved","DynImp.C288_clear DynImp.C288_clean_up DynImp.C288_individual_state DynImp.C288_individual DynImp.C288_found DynImp.C288_counts DynImp.C288_successful DynImp.C288_sequential DynImp.C288_sequential_errors DynImp.C288_orders_fresh DynImp.C288_orders DynImp.C288_pairs DynImp.C288_pairs_length DynImp.C288_cross DynImp.C288_cross_counts DynImp.C288_report DynImp.C288_result","the interpreter is a parameter")
C("C289","proved","DynImp.C289_discover DynImp.C289_names DynImp.C289_verdict DynImp.C289_cross_violated DynImp.C289_orders_violated DynImp.C289_tests_violated DynImp.C289_missing_name_violated DynImp.C289_prefix_violated DynImp.C289_argument_violated","proves the violations")
C("C290","proved","Conf.C290_timeout Conf.C290_dry_run Conf.C290_again Conf.C290_enabled Conf.C290_feedstock Conf.C290_source Conf.C290_source_value Conf.C290_json Conf.C290_token_violated Conf.C290_pypi_violated Conf.C290_debug_violated Conf.C290_hash_violated","int() is an oracle; proves the violations")
C("C291","proved","Conf.C291_report Conf.C291_rate Conf.C291_key_error Conf.C291_missing Conf.C291_criteria Conf.C291_no_tests_violated Conf.C291_results_violated Conf.C291_summary_violated Conf.C291_broken_violated","exact rate; proves the violations")
C("C292","proved","Rnd.C292_exponent Rnd.C292_accuracy Rnd.C292_exact","np.log is an oracle with a given error")
C("C293","proved","DocCount.C293_count DocCount.C293_examples DocCount.C293_order DocCount.C293_add DocCount.C293_merge_violated","")
