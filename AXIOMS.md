# Axioms of each theorem in MANIFEST.json

Output of `#print axioms` (tools/axioms.py), grouped.

## none (6 theorems)

C33_call_fails, Act.C68_named, Orb.C160_own_axes, Orb.C160_named, Orb.C160_shared_kwargs, DynImp.C289_argument_violated

## Classical.choice, Quot.sound, propext (1150 theorems)

C01_type_error, C01_value_error, C01_canonical, C01_pieces_unique, C01_order_args, C01_order_plus, C02_empty_name, C02_available, C02_unavailable, C02_malformed, C02_empty_name_accepted, C03_rejected, C03_accepted, C03_comma_form_fails, C03_ions_refused, C04_drop_species, C04_drop_invalid, C04_drop_aux, C04_drop_twice, C05_stored_columns, C05_refused, C05_ion_refused, C06_scalar_thermal_speed, C07_missing_component_fabricates, C08_save_load, C08_save_load_core, C08_spacecraft_needs_identity, C09_aux_accepted, C09_history, C09_errors, C10_sum, C10_measured, C10_nan, C10_order, C10_columns, C11_value, C11_protons, C11_order, C11_additive, C12_momentum, C12_single, C12_order, C12_projected, C13_general, C13_biased, C14_antisymmetric, C14_additive, C14_self, C15_additive, C15_value, C15_scalar, C16_value, C16_additive, C16_speed_ratio, C16_nan, C16_magnetic_pressure, C17_value, C17_single, C18_value, C18_zero_iff, C18_galilean, C18_two, C18_single, C19_three_species_crash, C19_two, C20_alfven, C20_sound, C20_ratio, C20_monotone, C21_beta, C21_sum, C21_isotropic, C21_caani, C21_pdynamic, C22_lnlambda_symmetric, C22_balance, C23_errors, C23_value, C24_vdf_ratio, C25_errors, C25_neutral, C25_masked, C25_temperature, C26_sum, C26_comoving, C26_odd, C26_single, C27_unusable, C28_value, C28_adiabatic, C29_mag_rho, C29_mag_nan, C29_longitude, C30_exchanged, C30_pole, C31_unit_vector, C31_unit_vector_zero, C31_project, C31_scale_invariant, C32_cos_theta, C32_extreme, C34_frame_name, C34_hci, C34_gse, C34_other_frame, C35_errors, C35_ratio, C35_hydrogen, C35_reciprocal_chain, C35_hydrogen_agrees, C35_lookup, C36_identities, C37_bounded, C38_species, C38_idempotent, C39_value, C39_missing, C39_mean_free, C39_shift, C39_constant, C39_local, C39_stored, C39_window, C39_defaults, C40_selection, C41_construction, C41_covariance_rejected, C42_insufficient, C42_returned, C43_history, C43_failed_call, C44_residuals, C44_percent, C44_rsq, C45_unweighted, C45_weighted, C46_partition, C46_outcome, C47_parallel_ignores_limits, C47_different_data, C47_agree_without_limits, C48_crash, C49_failures_hidden, C49_popt_crashes, C50_intercepts, C50_horizontal, C51_wrong_sign, C52_hingeMin, C52_hingeMax, C52_hingeSaturation, C52_hingeAtPoint, C53_twoLine, C53_saturation, C53_angles_agree, C54_heavySide, C54_composite, C55_gaussian, C55_normalized, C55_ln_shape, C55_normal_parameters, C56_cdf, C56_forms, Tex.C57_escapes, Tex.C57_annotation_balanced, Tex.C57_additional_list, Swap.C59_exact_swap, Swap.C59_when, Swap.C59_ordered, Swap.C59_again, Swap.C59_missing, Insta.C60_bins, Insta.C60_growth, Insta.C60_threshold, Insta.C60_published, Cache.C61_session, Cache.C61_history, Cache.C62_crash_wedges, Cache.C62_first_download, Act.C64_no_extrapolation, Act.C64_unsorted_leaks, Act.C64_overshoot, Act.C64_refused, Act.C65_tiling, Act.C65_cut, Act.C66_bands, Act.C66_maximum_uncovered, Act.C66_errors, Act.C67_max, Act.C67_feature, Act.C67_zscore, Act.C67_degenerate, Act.C68_chain_loses, C68_trim, Icme.C69_contains, Icme.C70_interval_end, Icme.C71_repeat, Hist.C73_one_bin, Hist.C73_extremes, Hist.C73_minimum_lost, Hist.C73_explicit_edges, Hist.C73_constant_data, Hist.C74_counts, Hist.C74_clim, Hist.C74_counts2, Hist.C74_data2, Hist.C75_linear, Hist.C75_log, Hist.C75_empty, Hist.C76_density, Hist.C76_density_log, Hist.C76_max_norms, Hist.C76_zero_column, Hist.C76_conditional_densities, Hist.C77_exact_1d, Hist.C77_2d, Hist.C77_hidden_marked, Hist.C77_threshold, Hist.C78_cdf, Hist.C78_refuses, Spiral.C79_partition, Spiral.C79_bin_number, Spiral.C80_limit, Spiral.C80_terminates_iff, Spiral.C81_extend, Spiral.C81_all_data_inside, Spiral.C81_every_datum_binned, PlotTools.C82_grid, PlotTools.C83_panels, PlotTools.C83_bar, PlotTools.C83_location, PlotTools.C83_shape, PlotTools.C84_filter, PlotTools.C84_plain, PlotTools.C84_local, PlotTools.C84_integer, Labels.C85_order, Labels.C85_trichotomy, Labels.C86_units, Labels.C86_error_units, Labels.C86_unknown, Labels.C86_angular, Labels.C86_table, Labels.C87_ion, Labels.C87_int_charge, Labels.C87_ratio, C87_charge_text, Scripts.C88_components, Scripts.C88_forward, Scripts.C88_tags, Scripts.C88_created, Scripts.pkgLt_iff, Scripts.C88_read, Scripts.C88_start, Scripts.C88_refused, Scripts.C89_stops, Scripts.C89_sleeps, Scripts.C89_exit, Scripts.C89_normalized, Scripts.C89_codes, Scripts.C90_translate, Scripts.C90_marker, C91_default_load_needs_attachments, C91_default_load_needs_aux, C91_missing_keys, C92_save_keeps_stale_aux, C92_save_keeps_stale_spacecraft, C92_load_attaches_stale, C94_missing_becomes_zero, C94_anisotropy_infinite, C95_opposite_charges_nan, C96_missing_position_is_zero, C96_partial_position, C97_missing_component, C97_all_missing, C98_rectified, C98_polarity, C98_stored, C99_covariance_failure, C100_no_parent_attribute, C101_moyal_symmetric, C101_reported_formula, C102_few_below, C102_nan_guess, C102_hingeAtPoint, C102_hingeMin, C103_ignored_guesses, C104_hingeAtPoint_flat, C104_saturation_flat, C105_gaussian_guess, Tex.C106_argument_mutated, Tex.C106_partial_mutation, Tex.C107_rename, Tex.C107_translate, Insta.C108_pandas2, Insta.C109_missing_is_stable, Cache.C110_long_lived_loader, Cache.C111_digits_in_path, Cache.C111_clock, Act.C112_default_kind_fails, Act.C113_edges, Act.C114_labels, Act.C114_documented_mean, Act.C115_default_threshold, Act.C116_group, Act.C116_one_per_excursion, Act.C116_two_sample_excursion, Act.C116_one_sample_excursion, Act.C117_first_maximum, Act.C118_std_error, Act.C119_overlap_fails, Act.C120_unique_times, Act.C120_order_unchecked, Act.C120_rejected, Icme.C121_queries, Icme.C123_summary, Hist.C124_collapse, Hist.C124_default, Hist.C125_axnorm, Hist.C126_border, Hist.C127_take, Hist.C127_once, Hist.C128_clip_keeps, Hist.C128_one_sided, Hist.C128_alim, Hist.C129_guard, Hist.C130_log_axis, Spiral.C131_outside_fails, Spiral.C131_nonfinite, Spiral.C131_inside, Spiral.C132_caller_array, Spiral.C133_size_filter, Spiral.C133_density_filter, Spiral.C133_refused, PlotTools.C134_joint_legend, PlotTools.C135_sample, PlotTools.C135_excludes, PlotTools.C135_one_missing, Labels.C136_species, Labels.sep_plus, Labels.C136_unknown, Labels.C136_text, Labels.C137_mutable_key, Labels.C138_text_constituents, Labels.C138_function_path, Labels.C139_absolute, Labels.C140_comma, Labels.C140_lt_gt, Labels.C140_structure, Labels.C141_dimensionless, Labels.C141_patterns, Labels.C141_cleanup, Labels.C141_signs, Labels.C142_frequency, Labels.C142_interval, Labels.C143_axnorm, Labels.C143_distance, Labels.C143_distance_text, Scripts.C144_latest_is_stale, Scripts.C144_patch_stuck, Scripts.C145_no_final_check, Scripts.C145_zero_interval, Scripts.C145_negative_interval, Scripts.C145_spelling, Scripts.C146_environment, Scripts.C146_options, Scripts.C147_recipe, Scripts.C147_silent, Scripts.C148_update, Scripts.C148_ignored, Scripts.C149_closed, Scripts.C149_opened, Scripts.C149_prefix, Scripts.C149_no_file, Scripts.C150_rows, Scripts.C150_names, Scripts.C150_other_operators, Scripts.C151_ready, Scripts.C151_changelog, Scripts.C151_last_section, C152_twoLine, C152_saturation, C152_hinge, C152_hingeAtPoint, C152_heavySide, C152_heavySide_exact, C152_sufficient, C153_amplitude, Plt.C154_history, Plt.C154_log_history, Plt.C155_text_labels, Plt.C155_scale_wrong, Plt.C155_explicit, Plt.C155_explicit_scales, Plt.C156_constructed, Plt.C156_accepts, Plt.C157_injective, Plt.C157_collisions, Plt.C157_new_hist2d_count, Plt.C157_new_hist2d, Plt.C157_new_hist1d, Plt.C157_new_hist1d_count, Plt.C157_new_scatter, Plt.C157_new_spiral, Orb.C158_legs, Orb.C158_refused, Orb.C158_cell, Orb.C159_max_norms, Orb.C159_density, Orb.C159_density_wrong, Orb.C159_density_uniform, Orb.C159_limits_wrong, Orb.C159_conditional, Orb.C160_orbit_cbar, Orb.C160_kind, Orb.C160_mirrored, C160_orbit_scale, Orb.C161_points, Orb.C161_coloured, Orb.C162_marked, Orb.C162_covers_and_overshoots, Orb.C162_refused, Orb.C163_untouched, Orb.C163_limited, Orb.C163_counts_wrong, Orb.C163_defaults, Uc.C164_labels, Uc.C164_derived, Uc.C164_heat_flux, Uc.C164_entropy, C164_defaults, Uc.C165_tables, Uc.C165_polytropic, FFP.C166_path, FFP.C166_distinct, FFP.C166_history, FFP.C167_few, FFP.C167_spacing, FFP.C167_monotone, FFP.C168_residuals, FFP.C168_agree, FFP.C168_kinds, FFP.C168_unknown, FFP.C168_style, FFP.C168_label_both, FFP.C168_label_single, C168_label_default, FFP.C169_window, FFP.C169_unweighted, FFP.C169_gap, Cov.C170_symmetric, Cov.C170_inverse, Cov.C170_pseudo, Cov.C170_sigma, Cov.C170_rescale, Imp.C172_sound, Imp.C172_found, Imp.C172_once, Imp.C172_terminates, Imp.C173_simple_finds_nothing, Tex.C174_reported, Tex.C174_small_value, Tex.C174_zero_uncertainty, Tex.C174_nonfinite, Tex.C175_line, Tex.C175_lines, Tex.C175_plain_kept, Tex.C175_formula_damaged, Tex.C176_decimal, Tex.C176_exponent, Tex.C176_value_lost, Tex.C176_line, Tex.C176_parameter, Tex.C177_set, Tex.C177_first, Tex.C177_not_repeatable, Swap.C178_moments, Swap.C178_base_ten, Swap.C178_agree, C179_times, C179_times_plus, C179_none_beyond, C179_plus, C179_plus_origin, C180_exact, C180_unit, C180_few, C180_intercepts, lsq_nonvacuous, C181_exponential, C181_exponential_exact, C181_cdf, C181_power, C181_moyal, C181_refused, Hist.C182_axes, Hist.C182_two_edges, Hist.C182_own, Hist.C183_marginal, Hist.C183_hidden, Hist.C183_dependent, Hist.C183_axis, Hist.C184_rectangle, Hist.C184_centre, Hist.C184_grid, Hist.C184_levels, C184_default_levels, Hist.C184_density_levels, Hist.C184_curve, Act.C185_values, Act.C185_local, Act.C185_max, Act.C186_run, Act.C186_cached, Act.C186_first_read, Act.C186_run_after_nssn, Act.C186_interpolated, Act.C186_band, Act.C186_norm_by, Act.C186_no_column, Act.C187_lisird, Act.C187_colorbar, Act.C187_ties, Act.C187_ticks, PlotTools.C188_writes, PlotTools.C188_history, PlotTools.C188_kept, PlotTools.C188_subplots, PlotTools.C189_selecting, PlotTools.C189_summary, PlotTools.C189_right_iff, PlotTools.C189_double_count, PlotTools.C189_construct, Spiral.C190_cell, Spiral.C190_conserved, Spiral.C190_mean_between, Spiral.C190_constant, Spiral.C190_default_mean, Spiral.C190_data, Spiral.C191_thresholds, Spiral.C191_rectangle, Spiral.C191_position, Spiral.C191_norm, Spiral.C191_alpha, FitRun.C192_start, FitRun.C192_start_value, FitRun.C192_lm_bounds, FitRun.C192_args, FitRun.C192_guess_needed, FitRun.C192_bounds_by_name, FitRun.C192_bound_missing, FitRun.C192_wellposed, FitRun.C192_lm_alone, FitRun.C192_wrong_length, FitRun.C192_zero_weight, FitRun.C193_least_squares, FitRun.C193_outlier, FitRun.C193_units, FitRun.C193_unit_dependent, FitRun.C194_trend, FitRun.C194_refused, FitRun.C194_label_sound, FitRun.C194_label_unsound, FitRun.C194_drawn, FitRun.C194_drawn_log, C195_single, C195_pair, C195_self, C195_commas, C195_unknown, C195_index, C195_boost_pair, C195_boost_single, C195_alfven, C195_defaults, C196_agree, C196_missing, C196_anisotropy_missing, C196_sound, C196_sound_empty, C196_no_scalar, Labels.C197_balanced, Labels.C197_thin_space, Labels.C198_text, Labels.C198_default, Labels.C198_components, Labels.C198_debris, Labels.C199_equal, Labels.C199_labels, Labels.C199_species, Labels.C199_collisions, Labels.C200_path, Labels.C200_case, Labels.C200_percent, Labels.C200_species, Labels.C200_text, Labels.C200_epoch, Labels.C200_date, Labels.C201_ssn, Labels.C201_ssn_unique, Labels.C201_xcorr_errors, Labels.C201_xcorr_clean, Labels.C201_xcorr_text, Labels.C201_ambiguous, Labels.C201_manual, Labels.C201_manual_text, Labels.C201_count, PObj.C202_hasattr, PObj.C203_electrons, PObj.C203_histories, PObj.C203_set_data, PObj.C203_refused, PObj.C203_half, PObj.C203_duplicate, Act.C204_mean, Act.C204_first, Act.C205_extremum, Act.C205_crossings, Act.C205_edges, Act.C205_complete, Act.C205_trusted, Act.C205_dates, Act.C205_units, Act.C205_names, Act.C205_early, C206_elements, C206_lookup, C206_ratio, C206_most, C206_hydrogen, C206_comment, Act.C207_cycles, Act.C207_cut, Act.C207_shipped, Act.C207_default, C208_tables, C208_local, C208_keyError, C208_free, C208_com, C208_proj, C208_pairs, C208_nc, C208_electrons, C208_sums, C208_pdynamic_proj, FitRun.C209_report, FitRun.C209_not_the_start, FitRun.C209_no_guess, FitRun.C209_line, FitRun.C209_dof, FitRun.C209_default_start, FitRun.C209_before, Act.C210_keys, Act.C210_documented, Act.C210_download, Act.C210_dates, Act.C210_construct, Act.C211_cycle, Act.C211_labels, Act.C211_shipped, Act.C211_minimum, Tex.C212_text, Tex.C212_stripped, Tex.C212_exponent, Tex.C212_exponent_stripped, Tex.C212_paper, Tex.C212_relative_error, Tex.C212_failed, Tex.C212_available, Tex.C212_spare_uncertainty, Tex.C212_statistics, Tex.C213_lines, Tex.C213_relative_error, Tex.C213_failed_formula, Tex.C214_lines, Tex.C214_gaussians, Tex.C214_exponentials, Tex.C214_powerLaws, Tex.C214_steps, Tex.C214_hinges, Tex.C214_wrong, Tex.C214_shown, Labels.C215_refresh, Labels.C215_new, Labels.C215_stale, Labels.C215_mixed, Labels.C215_setters, Labels.C215_cycle, Labels.C215_frequency_path, C216_drift, C216_collisions, C216_scalars, C216_velocity, C216_invariant, C216_electrons, C216_projected, C216_same_ion, C216_vdf_unbounded, C216_missing, C217_vectors, C217_scalars, C217_projected, C217_electrons, C217_vector_algebra, C218_extensive, C218_intensive, C218_powers, C218_drifting, C218_electrons, C218_lnlambda, C219_thermal, C219_field, C219_polarity, C219_anisotropy, Repro.C220_all_or_nothing, Repro.C220_settled, Repro.C220_withheld, Repro.C220_raises, Repro.C220_dirty_is_real, Repro.C220_not_all_changes, Repro.C220_race, Repro.C220_installed, Repro.C220_dependencies, Repro.C220_total, Repro.C220_citation, Repro.C220_citation_identifies, Repro.C220_printed, C221_axes, C221_reversal, C221_rectified, C221_units, C221_density, C221_clock, C221_wave, C222_rows, C222_reindexed, C222_offset, C222_velocity_own, C222_no_velocity, C222_counted, C222_counted_depends, Insta.C223_23, Insta.C223_34_cold, Insta.C223_34_hot, Insta.C223_34_violated, Insta.C223_34_violated_low, Insta.C223_between_gone, Insta.C224_names, Insta.C224_colours, Insta.C224_mpl39, Insta.C224_row, C225_lines, C225_hinges, C225_peaks, C225_composites, C225_decays, C225_saturation, C225_hingeSaturation, C225_guess_lines, C225_guess_two, C225_guess_hinge, C225_guess_point, C225_guess_step, C225_guess_peaks, C225_guess_composites, C225_guess_saturation, C225_guess_other, C225_step_violated, C225_threshold_violated, C225_angle_violated, C225_guess_point_violated, C226_curves, C226_at_zero, C226_guess_lines, C226_guess_step, C226_guess_peaks, C226_guess_composites, C226_guess_intercepts_violated, C226_guess_cut_violated, C227_selection, C227_guesses, C227_objective, C227_statistics, C227_line_violated, C227_point_violated, Hist.C228_repeated, Hist.C228_distinct, Hist.C228_rows, Hist.C228_order, Hist.C228_repeated_y, Hist.C228_counts, Hist.C228_rows2, Hist.C228_repeated2, Hist.C229_counts, Hist.C229_total, Hist.C229_density, Hist.C230_cells, Hist.C230_labels, Box.C231_tensor, Box.C231_vector, Box.C231_magnitude_violated, Box.C231_vector_mag, Box.C231_repeated_column, Box.C232_project, Box.C232_cos, Box.C232_missing, Box.C232_other, C233_totals, C233_flows, C233_temperature, C234_electrons, Act.C235_table, Act.C235_order, Act.C235_twice, Act.C235_noon, Labels.C236_listing, Labels.C236_removed, Labels.C236_empty, Labels.C236_classes, Labels.C236_measurements, Hist.C237_order, Hist.C238_join, Hist.C238_default, Hist.C239_coarser, Hist.C240_marginal, Hist.C240_units, Plans.C241_all, Plans.C241_growing, Plans.C242_adds, Plans.C242_once, Plans.C242_complete, Plans.C242_twice, Plans.C243_repeat, Plans.C244_read, Plans.C244_plain, Plans.C244_remote, Plans.C244_remote_slash, Sc.C245_accepts, Sc.C245_errors, Sc.C245_reads, Sc.C245_again, Sc.C245_others, Sc.C246_history, Recipe.C247_update, Recipe.C247_read, Recipe.C247_main, Recipe.C247_compare, Recipe.C248_read, Recipe.C248_extras, Recipe.C248_none, DocS.C249_tag, DocS.C249_not_master, DocS.C249_release, DocS.C250_directory, DocS.C250_targeted, DocS.C251_blocks, DocS.C251_again, Rnd.C252_energy, Rnd.C252_range, Rnd.C252_reverse, Rnd.C252_wave, Rnd.C252_ratio, Rnd.C252_unit, Rnd.C252_accuracy, Rnd.C252_exact, Rnd.C252_budget_violated, Rnd.C253_nonneg, Rnd.C253_component, Rnd.C253_unit, Rnd.C253_axis, Rnd.C253_plane, Rnd.C253_reverse, Rnd.C253_scale, Rnd.C253_accuracy, Rnd.C253_exact, Rnd.C253_cosine_violated, Rnd.binary_nearest, Rnd.C254_density, Rnd.C254_accuracy, Rnd.C254_two, Rnd.C254_order_violated, Rnd.C254_flow, Rnd.C254_flow_zero, Rnd.C254_exact, Rnd.C255_feature, Rnd.C255_feature_range, Rnd.C255_max, Rnd.C255_position, Rnd.C255_rsq, Rnd.C255_mean, Rnd.C255_chisq, Rnd.C255_exact, Rnd.C256_partition, Rnd.C256_limit, Rnd.C256_terminates_iff, Rnd.C256_last_edge, Rnd.C257_density, Rnd.C257_pressure, Rnd.C257_temperature, Rnd.C257_beta, Rnd.C257_sound, Rnd.C257_alfven, Rnd.C257_entropy, Rnd.C257_anisotropy, Rnd.C257_sum, Rnd.C257_double, Rnd.C258_accuracy, Rnd.C258_double, Rnd.C258_sum, Rnd.C258_reverse, Rnd.C258_rest, Rnd.C258_sign, Rnd.C258_pressure, Rnd.C258_same_violated, Rnd.C259_density1, Rnd.C259_density2, Rnd.C259_column, Rnd.C259_row, Rnd.C259_empty, Rnd.C259_order, Rnd.C260_gaussian, Rnd.C260_gaussian_normalized, Rnd.C260_gaussian_ln, Rnd.C260_exponential, Rnd.C260_exponential_cdf, Rnd.C260_line, Rnd.C260_two_lines, Rnd.C260_hinge_min, Rnd.C260_hinge_max, Rnd.C260_hinge_point, Rnd.C260_hinge_meets, Rnd.C260_hinge_near, Rnd.C260_step, Rnd.C260_hinge_violated, Hist.C261_borders, Hist.C261_below, Hist.C261_limits, Hist.C261_few_columns, Hist.C261_default, Hist.C261_consumed, Hist.C261_apart, Draw.C262_window, Draw.C262_no_window, Draw.C262_drawstyle, Draw.C262_consumed, Draw.C262_errorbar, Draw.C262_abbreviation, Draw.C263_window, Draw.C263_no_wkey, Draw.C263_errorbar, Draw.C263_linestyle, Draw.C264_raw, Draw.C264_raw_bars, Draw.C264_used, Draw.C264_used_bars, Draw.C264_markevery, Draw.C264_names, Draw.C264_twice, Draw.C264_edge_colour, Draw.C265_fit, Draw.C265_all, Draw.C265_zorder, Draw.C265_raw_style, Draw.C265_used_style, Contour.C266_labels, Contour.C266_labels_spiral, Contour.C266_auto, Contour.C266_auto_spiral, Contour.C266_off, Contour.C266_off_spiral, Contour.C266_norm, Contour.C266_opts, Contour.C266_consumed, Contour.C266_used, Contour.C267_plain, Contour.C267_wrong, Contour.C268_points, Contour.C268_inside, Contour.C268_refused, Contour.C268_grid, Contour.C268_empty, Draw.C269_all, Draw.C269_ax, Draw.C269_window, Draw.C269_consumed, Draw.C270_resid, Draw.C270_ignored, Draw.C270_ax, Draw.C270_last, Draw.C270_first, Draw.C270_stops, Rnd.C271_power, Rnd.C271_moyal, Rnd.C271_gauss_plus, Rnd.C271_gauss_times, Rnd.C271_gauss_plateau, Rnd.C271_plateau, Rnd.C271_hinge_saturation, Rnd.C271_saturation, Rnd.C272_hci, Rnd.C272_gse, Rnd.C272_exact, Rnd.C272_symmetric, Contour.C273_all, Contour.C273_levels, Contour.C273_norm, Contour.C273_limit, Contour.C273_cmap, Contour.C273_style, Contour.C273_label_options, Contour.C273_count, Contour.C273_bar, Contour.C274_limit, Contour.C274_count, Contour.C274_list, DocTree.coverage_counts, DocTree.coverage_methods_lexical, DocTree.coverage_missing, DocTree.coverage_nested_class, DocTree.coverage_range, DocTree.coverage_unlisted, DocTree.report_totals, DocTree.report_priorities, DocTree.baseline_counts, DocTree.baseline_methods_le, DocTree.baseline_format, DocTree.baseline_no_numpy, DocTree.baseline_shares, DocTree.baseline_shares_exact, DocTree.validate_eq, DocTree.validate_component, DocTree.validate_clean, DocTree.validate_no_section, DocTree.has_section_iff, DocTree.validate_words, Rnd.C279_exact, Rnd.C279_accuracy, Rnd.C279_double, Rnd.C279_mono, Rnd.C279_equal, Rnd.C279_side, Rnd.C279_isotropic, Rnd.C279_single, Rnd.C279_isotropic_speed, Rnd.C279_speed, Rnd.C279_reverse, Rnd.C280_exact, Rnd.C280_reverse, Rnd.C280_rest, Rnd.C280_sign, Rnd.C280_together_violated, Spiral.C281_succeeds, Spiral.C281_no_cells, Spiral.C281_counts, Spiral.C281_limit, Rnd.C282_side, Rnd.C282_bins, Rnd.C282_persists, Rnd.C282_bin_beta, Rnd.C282_accuracy, Rnd.C282_same, Rnd.C282_exact, Rnd.C282_exact_bin, Rnd.C283_symmetric, Rnd.C283_accuracy, Rnd.C283_exact, Rnd.C284_slow_violated, Rnd.C284_rate_violated, Rnd.C284_library, Rnd.C284_exact, Rnd.C284_exact_both, Rnd.C285_value, Rnd.C285_density, Rnd.C285_velocity, Rnd.C285_speed, Rnd.C285_double, Rnd.C285_reverse, Rnd.C285_rest, Rnd.C285_sign, Rnd.C285_masked, Rnd.C285_unit, Rnd.C285_errors, Rnd.C285_exact, Rnd.C285_together_violated, Rnd.C286_parallel, Rnd.C286_perpendicular, Rnd.C286_nonneg, Rnd.C286_reverse, Rnd.C286_unit, Rnd.C286_axis, Rnd.C286_exact, Rnd.C286_aligned_violated, Rnd.C287_reverse, Rnd.C287_drift, Rnd.C287_together, Rnd.C287_equal, Rnd.C287_density, Rnd.C287_unit, Rnd.C287_coefficient, Rnd.C287_exact, DynImp.C288_clean_up, DynImp.C288_individual_state, DynImp.C288_individual, DynImp.C288_found, DynImp.C288_counts, DynImp.C288_successful, DynImp.C288_sequential, DynImp.C288_sequential_errors, DynImp.C288_orders_fresh, DynImp.C288_orders, DynImp.C288_pairs_length, DynImp.C288_cross, DynImp.C288_cross_counts, DynImp.C288_report, DynImp.C288_result, DynImp.C289_discover, DynImp.C289_names, DynImp.C289_verdict, DynImp.C289_cross_violated, DynImp.C289_orders_violated, DynImp.C289_tests_violated, DynImp.C289_missing_name_violated, Conf.C290_timeout, Conf.C290_dry_run, Conf.C290_again, Conf.C290_enabled, Conf.C290_feedstock, Conf.C290_source, Conf.C290_source_value, Conf.C290_json, Conf.C290_token_violated, Conf.C290_pypi_violated, Conf.C290_debug_violated, Conf.C290_hash_violated, Conf.C291_report, Conf.C291_rate, Conf.C291_key_error, Conf.C291_missing, Conf.C291_criteria, Conf.C291_no_tests_violated, Conf.C291_results_violated, Conf.C291_summary_violated, Conf.C291_broken_violated, Rnd.C292_exponent, Rnd.C292_accuracy, Rnd.C292_exact, DocCount.C293_examples, DocCount.C293_order, DocCount.C293_add, DocCount.C293_merge_violated

## Quot.sound, propext (53 theorems)

C09_sc_accepted, C09_atomic, Tex.C57_string_unchecked, Tex.C58_popt, Tex.C58_history, Act.C68_separation, Icme.C70_range, Icme.C70_durations, Icme.C71_filter, Icme.C71_spelling_lost, Icme.C71_missing_name, Icme.C72_load, Icme.C72_history, Tex.C107_collision, Tex.C107_missing, C108_contour_kinds, Insta.C109_legend, C110_downloads, Act.C119_bands, Icme.C122_truncated_cache, Plt.C154_set_labels, Plt.C156_in_sync, Plt.C156_word_refused, FFP.C166_refused, Cov.C171_history, Cov.C171_failed, Imp.C172_missed, Imp.C173_relative, Imp.C173_relative_init, Imp.C173_absolute, Imp.C173_subpackage, Imp.C173_edges, PlotTools.C188_names, PlotTools.C188_refused, PObj.C202_found, PObj.C202_access, PObj.C202_unset, PObj.C202_shadow, Act.C207_dates, Plans.C241_missed, Plans.C243_last, Plans.C243_shape, Plans.C243_unnamed, Plans.C243_directory, Plans.C244_errors, Plans.C244_cut, Plans.C244_remote_parts, DocS.C250_file, DocS.C250_ci, DynImp.C288_clear, DynImp.C288_pairs, DynImp.C289_prefix_violated, DocCount.C293_count

## propext (21 theorems)

Cache.C63_age, C65_six_years, C88_create_tag, Scripts.C89_found, C93_tensor_set_data_ignored, C93_invalid_rejected, Labels.C137_description, Labels.C141_units, C154_new_scatter, Plt.C155_stale, Plt.C156_shared, FFP.C166_y_scale, FFP.C168_dict, Cov.C171_stale, C196_eq, PObj.C202_endless, PObj.C202_copy, Act.C210_plot, Labels.C236_star, Contour.C267_whole, Contour.C267_exponent
