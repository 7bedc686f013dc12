'Verif.Props.C01_partition' depends on axioms: [propext, Classical.choice, Quot.sound]
'Verif.Props.C02_same_group' depends on axioms: [propext, Classical.choice, Quot.sound]
'Verif.Props.C03_sorted' depends on axioms: [propext, Classical.choice, Quot.sound]
'Verif.Props.C03_order_independent' depends on axioms: [propext, Classical.choice, Quot.sound]
'Verif.Props.C03_number_components' depends on axioms: [propext, Classical.choice, Quot.sound]
'Verif.Props.C03_fails_iff' depends on axioms: [propext, Classical.choice, Quot.sound]
'Verif.Props.C04_snapped_partial' depends on axioms: [propext, Classical.choice, Quot.sound]
'Verif.Props.C04_after_end_fails' depends on axioms: [propext, Classical.choice, Quot.sound]
'Verif.Props.C04_counterexample' depends on axioms: [propext, Classical.choice, Quot.sound]
'Verif.Props.C05_rejects' depends on axioms: [propext, Classical.choice, Quot.sound]
'Verif.Props.C05_accepts' depends on axioms: [propext, Classical.choice, Quot.sound]
'Verif.Props.C06_default_normalize' depends on axioms: [propext, Classical.choice, Quot.sound]
'Verif.Props.C07_frame_partial' depends on axioms: [propext, Classical.choice, Quot.sound]
'Verif.Props.C07_response_partial' depends on axioms: [propext, Classical.choice, Quot.sound]
'Verif.Props.C07_counterexample' depends on axioms: [propext, Classical.choice, Quot.sound]
'Verif.Props.C08_documented' depends on axioms: [propext, Classical.choice, Quot.sound]
'Verif.Props.C08_covers' depends on axioms: [propext, Classical.choice, Quot.sound]
'Verif.Props.C09_values' depends on axioms: [propext, Classical.choice, Quot.sound]
'Verif.Props.C09_energy' depends on axioms: [propext, Classical.choice, Quot.sound]
'Verif.Props.C10_length' depends on axioms: [propext, Classical.choice, Quot.sound]
'Verif.Props.C10_no_assertion' depends on axioms: [propext, Classical.choice, Quot.sound]
'Verif.Props.C11_alignment_partial' depends on axioms: [propext, Classical.choice, Quot.sound]
'Verif.Props.C11_exact' depends on axioms: [propext, Classical.choice, Quot.sound]
'Verif.Props.C11_counterexample' depends on axioms: [propext, Classical.choice, Quot.sound]
'Verif.Props.C12_unique_solution' depends on axioms: [propext, Classical.choice, Quot.sound]
'Verif.Props.C13_linear' depends on axioms: [propext, Classical.choice, Quot.sound]
'Verif.Props.C13_normalised' depends on axioms: [propext, Classical.choice, Quot.sound]
'Verif.Props.C13_scale_invariant' depends on axioms: [propext, Classical.choice, Quot.sound]
'Verif.Props.C14_self_deconvolution' depends on axioms: [propext, Classical.choice, Quot.sound]
'Verif.Props.C15_succeeds' depends on axioms: [propext, Classical.choice, Quot.sound]
'Verif.Props.C15_bounded' depends on axioms: [propext, Classical.choice, Quot.sound]
'Verif.Props.C16_exact_division' depends on axioms: [propext, Classical.choice, Quot.sound]
'Verif.Props.C17_peak_at_tshift' depends on axioms: [propext, Classical.choice, Quot.sound]
'Verif.Props.C17_normalised' depends on axioms: [propext, Classical.choice, Quot.sound]
'Verif.Props.C18_circular_delay' depends on axioms: [propext, Classical.choice, Quot.sound]
'Verif.Props.C18_gauss_range' depends on axioms: [propext, Classical.choice, Quot.sound]
'Verif.Props.C19_real_outputs' depends on axioms: [propext, Classical.choice, Quot.sound]
'Verif.Props.C19_linear' depends on axioms: [propext, Classical.choice, Quot.sound]
'Verif.Props.C19_scale_invariant' depends on axioms: [propext, Classical.choice, Quot.sound]
'Verif.Props.C19_maximum_one_partial' depends on axioms: [propext, Classical.choice, Quot.sound]
'Verif.Props.C19_counterexample' depends on axioms: [propext, Classical.choice, Quot.sound]
'Verif.Props.C20_misfit_decreases' depends on axioms: [propext, Classical.choice, Quot.sound]
'Verif.Props.C21_stop' depends on axioms: [propext, Classical.choice, Quot.sound]
'Verif.Props.C21_zero_response' depends on axioms: [propext, Classical.choice, Quot.sound]
'Verif.Props.C21_succeeds' depends on axioms: [propext, Classical.choice, Quot.sound]
'Verif.Props.C22_admissible_spikes' depends on axioms: [propext, Classical.choice, Quot.sound]
'Verif.Props.C22_output' depends on axioms: [propext, Classical.choice, Quot.sound]
'Verif.Props.C23_greedy' depends on axioms: [propext, Classical.choice, Quot.sound]
'Verif.Props.C24_no_failure_partial' depends on axioms: [propext, Classical.choice, Quot.sound]
'Verif.Props.C24_one_point' depends on axioms: [propext, Classical.choice, Quot.sound]
'Verif.Props.C24_counterexample' depends on axioms: [propext, Classical.choice, Quot.sound]
'Verif.Props.C24_counterexample_noise' depends on axioms: [propext, Classical.choice, Quot.sound]
'Verif.Props.C25_reversal_and_shift' depends on axioms: [propext, Classical.choice, Quot.sound]
'Verif.Props.C25_zero_time' depends on axioms: [propext, Classical.choice, Quot.sound]
'Verif.Props.C26_damped' depends on axioms: [propext, Classical.choice, Quot.sound]
'Verif.Props.C26_noise_nonneg' depends on axioms: [propext, Classical.choice, Quot.sound]
'Verif.Props.C26_result' depends on axioms: [propext, Classical.choice, Quot.sound]
'Verif.Props.C27_knots' depends on axioms: [propext, Classical.choice, Quot.sound]
'Verif.Props.C27_missing_number' depends on axioms: [propext, Classical.choice, Quot.sound]
'Verif.Props.C27_monotone' depends on axioms: [propext, Classical.choice, Quot.sound]
'Verif.Props.C28_layers' depends on axioms: [propext, Classical.choice, Quot.sound]
'Verif.Props.C28_delay_times' depends on axioms: [propext, Classical.choice, Quot.sound]
'Verif.Props.C28_common_phases' depends on axioms: [propext, Classical.choice, Quot.sound]
'Verif.Props.C28_only_letters' depends on axioms: [propext, Classical.choice, Quot.sound]
'Verif.Props.C29_nonneg_monotone' depends on axioms: [propext, Classical.choice, Quot.sound]
'Verif.Props.C29_tables_sorted' depends on axioms: [propext, Classical.choice, Quot.sound]
'Verif.Props.C30_same_ref_partial' depends on axioms: [propext, Classical.choice, Quot.sound]
'Verif.Props.C30_stale' depends on axioms: [propext, Classical.choice, Quot.sound]
'Verif.Props.C30_counterexample' depends on axioms: [propext, Classical.choice, Quot.sound]
'Verif.Props.C31_no_nan_partial' depends on axioms: [propext, Classical.choice, Quot.sound]
'Verif.Props.C31_counterexample' depends on axioms: [propext, Classical.choice, Quot.sound]
'Verif.Props.C32_knots' depends on axioms: [propext, Classical.choice, Quot.sound]
'Verif.Props.C32_monotone' depends on axioms: [propext, Classical.choice, Quot.sound]
'Verif.Props.C32_range' depends on axioms: [propext, Classical.choice, Quot.sound]
'Verif.Props.C33_identity_partial' depends on axioms: [propext, Classical.choice, Quot.sound]
'Verif.Props.C33_counterexample' depends on axioms: [propext, Classical.choice, Quot.sound]
'Verif.Props.C33_s_multiple_partial' depends on axioms: [propext, Classical.choice, Quot.sound]
'Verif.Props.C33_same_table_partial' depends on axioms: [propext, Classical.choice, Quot.sound]
'Verif.Props.C34_length_and_prefix' depends on axioms: [propext, Classical.choice, Quot.sound]
'Verif.Props.C34_succeeds' depends on axioms: [propext, Classical.choice, Quot.sound]
'Verif.Props.C35_amplitudes' depends on axioms: [propext, Classical.choice, Quot.sound]
'Verif.Props.C36_conversion_partial' depends on axioms: [propext, Classical.choice, Quot.sound]
'Verif.Props.C36_sp_is_ps' depends on axioms: [propext, Classical.choice, Quot.sound]
'Verif.Props.C36_counterexample' depends on axioms: [propext, Classical.choice, Quot.sound]
'Verif.Props.C36_moves_sample_partial' depends on axioms: [propext, Classical.choice, Quot.sound]
'Verif.Props.C37_value_partial' depends on axioms: [propext, Classical.choice, Quot.sound]
'Verif.Props.C37_homogeneous_partial' depends on axioms: [propext, Classical.choice, Quot.sound]
'Verif.Props.C37_counterexample' depends on axioms: [propext, Classical.choice, Quot.sound]
'Verif.Props.C38_monotone' depends on axioms: [propext, Classical.choice, Quot.sound]
'Verif.Props.C38_errors' depends on axioms: [propext, Classical.choice, Quot.sound]
'Verif.Props.C39_rejects_partial' depends on axioms: [propext, Classical.choice, Quot.sound]
'Verif.Props.C39_first_trace' depends on axioms: [propext, Classical.choice, Quot.sound]
'Verif.Props.C39_counterexample' depends on axioms: [propext, Classical.choice, Quot.sound]
'Verif.Props.C40_bookkeeping' depends on axioms: [propext, Classical.choice, Quot.sound]
'Verif.Props.C40_failure' depends on axioms: [propext, Classical.choice, Quot.sound]
'Verif.Props.C40_default_phase' depends on axioms: [propext, Classical.choice, Quot.sound]
'Verif.Props.C41_explicit_partial' depends on axioms: [propext, Classical.choice, Quot.sound]
'Verif.Props.C41_derived' depends on axioms: [propext, Classical.choice, Quot.sound]
'Verif.Props.C41_counterexample' depends on axioms: [propext, Classical.choice, Quot.sound]
'Verif.Props.C42_mirrored' depends on axioms: [propext, Classical.choice, Quot.sound]
'Verif.Props.C42_twice' depends on axioms: [propext, Classical.choice, Quot.sound]
'Verif.Props.C43_sign' depends on axioms: [propext, Classical.choice, Quot.sound]
'Verif.Props.C43_before_deconvolution' depends on axioms: [propext, Classical.choice, Quot.sound]
'Verif.Props.C44_labels' depends on axioms: [propext, Classical.choice, Quot.sound]
'Verif.Props.C45_deconvolved_partial' depends on axioms: [propext, Classical.choice, Quot.sound]
'Verif.Props.C45_counterexample' depends on axioms: [propext, Classical.choice, Quot.sound]
'Verif.Props.C46_membership' depends on axioms: [propext, Classical.choice, Quot.sound]
'Verif.Props.C46_one_entry' depends on axioms: [propext, Classical.choice, Quot.sound]
'Verif.Props.C46_deconvolve_entry' depends on axioms: [propext, Classical.choice, Quot.sound]
'Verif.Props.C47_one_per_id' depends on axioms: [propext, Quot.sound]
'Verif.Props.C47_mean' depends on axioms: [propext, Classical.choice, Quot.sound]
'Verif.Props.C47_order_independent' depends on axioms: [propext, Classical.choice, Quot.sound]
'Verif.Props.C47_succeeds' depends on axioms: [propext, Classical.choice, Quot.sound]
'Verif.Props.C47_empty' depends on axioms: [propext, Quot.sound]
'Verif.Props.C48_metadata_partial' depends on axioms: [propext, Classical.choice, Quot.sound]
'Verif.Props.C48_counterexample' depends on axioms: [propext, Classical.choice, Quot.sound]
'Verif.Props.C49_trim2' depends on axioms: [propext, Classical.choice, Quot.sound]
'Verif.Props.C49_slice2' depends on axioms: [propext, Classical.choice, Quot.sound]
'Verif.Props.C50_one_per_bin' depends on axioms: [propext, Classical.choice, Quot.sound]
'Verif.Props.C50_mean' depends on axioms: [propext, Classical.choice, Quot.sound]
'Verif.Props.C50_outside' depends on axioms: [propext, Quot.sound]
'Verif.Props.C50_succeeds' depends on axioms: [propext, Classical.choice, Quot.sound]
'Verif.Props.C51_counts' depends on axioms: [propext, Classical.choice, Quot.sound]
'Verif.Props.C51_first_box' depends on axioms: [propext, Classical.choice, Quot.sound]
'Verif.Props.C52_input_unchanged' depends on axioms: [propext, Classical.choice, Quot.sound]
'Verif.Props.C52_order_independent' depends on axioms: [propext, Classical.choice, Quot.sound]
'Verif.Props.C52_result_order' depends on axioms: [propext, Classical.choice, Quot.sound]
'Verif.Props.C53_boxes' depends on axioms: [propext, Classical.choice, Quot.sound]
'Verif.Props.C53_increasing' depends on axioms: [propext, Classical.choice, Quot.sound]
'Verif.Props.C53_total_length' depends on axioms: [propext, Classical.choice, Quot.sound]
'Verif.Props.C54_inside' depends on axioms: [propext, Classical.choice, Quot.sound]
'Verif.Props.C54_outside' depends on axioms: [propext, Classical.choice, Quot.sound]
'Verif.Props.C55_complete' does not depend on any axioms
'Verif.Props.C55_distinct' does not depend on any axioms
'Verif.Props.C55_exactly_one' does not depend on any axioms
'Verif.Props.C55_documented' does not depend on any axioms
'Verif.Props.C56_roundtrip' depends on axioms: [propext, Classical.choice, Quot.sound]
'Verif.Props.C57_roundtrip' depends on axioms: [propext, Classical.choice, Quot.sound]
'Verif.Props.C58_counterexample' depends on axioms: [propext, Classical.choice, Quot.sound]
'Verif.Props.C58_counterexample_sac' depends on axioms: [propext, Classical.choice, Quot.sound]
'Verif.Props.C58_sac_partial' depends on axioms: [propext, Classical.choice, Quot.sound]
'Verif.Props.C58_sh_partial' depends on axioms: [propext, Classical.choice, Quot.sound]
'Verif.Props.C59_codes_partial' depends on axioms: [propext, Classical.choice, Quot.sound]
'Verif.Props.C59_read' depends on axioms: [propext, Classical.choice, Quot.sound]
'Verif.Props.C59_other_formats' depends on axioms: [propext, Classical.choice, Quot.sound]
'Verif.Props.C59_counterexample_writer' depends on axioms: [propext, Classical.choice, Quot.sound]
'Verif.Props.C59_counterexample_twice' depends on axioms: [propext, Classical.choice, Quot.sound]
'Verif.Props.C60_index_partial' depends on axioms: [propext, Classical.choice, Quot.sound]
'Verif.Props.C60_other_formats' depends on axioms: [propext, Classical.choice, Quot.sound]
'Verif.Props.C60_writer_index' depends on axioms: [propext, Classical.choice, Quot.sound]
'Verif.Props.C60_counterexample' depends on axioms: [propext, Classical.choice, Quot.sound]
'Verif.Props.C61_none_iff' depends on axioms: [propext, Classical.choice, Quot.sound]
'Verif.Props.C61_explicit' depends on axioms: [propext, Classical.choice, Quot.sound]
'Verif.Props.C61_default' depends on axioms: [propext, Classical.choice, Quot.sound]
'Verif.Props.C61_counterexample' depends on axioms: [propext, Classical.choice, Quot.sound]
'Verif.Props.C61_no_default_partial' depends on axioms: [propext, Classical.choice, Quot.sound]
'Verif.Props.C61_stream' depends on axioms: [propext, Classical.choice, Quot.sound]
'Verif.Props.C61_keep' depends on axioms: [propext, Classical.choice, Quot.sound]
'Verif.Props.C62_success' depends on axioms: [propext, Classical.choice, Quot.sound]
'Verif.Props.C62_no_arrival' depends on axioms: [propext, Classical.choice, Quot.sound]
'Verif.Props.C62_input' depends on axioms: [propext, Quot.sound]
'Verif.Props.C63_both_partial' depends on axioms: [propext, Quot.sound]
'Verif.Props.C63_counterexample' depends on axioms: [propext, Classical.choice, Quot.sound]
'Verif.Props.C64_event' depends on axioms: [propext, Classical.choice, Quot.sound]
'Verif.Props.C64_station' depends on axioms: [propext, Classical.choice, Quot.sound]
'Verif.Props.C64_error' depends on axioms: [propext, Classical.choice, Quot.sound]
'Verif.Props.C65_yield_iff' depends on axioms: [propext, Classical.choice, Quot.sound]
'Verif.Props.C65_skip_iff' depends on axioms: [propext, Classical.choice, Quot.sound]
'Verif.Props.C65_order' depends on axioms: [propext, Classical.choice, Quot.sound]
'Verif.Props.C66_skip_partial' depends on axioms: [propext, Classical.choice, Quot.sound]
'Verif.Props.C66_others_partial' depends on axioms: [propext]
'Verif.Props.C66_abort_iff' depends on axioms: [propext, Classical.choice, Quot.sound]
'Verif.Props.C66_counterexample' depends on axioms: [propext, Classical.choice, Quot.sound]
'Verif.Props.C66_counterexample_none' depends on axioms: [propext, Classical.choice, Quot.sound]
'Verif.Props.C67_complete' depends on axioms: [propext, Classical.choice, Quot.sound]
'Verif.Props.C67_attributes_partial' depends on axioms: [propext, Classical.choice, Quot.sound]
'Verif.Props.C67_window' depends on axioms: [propext, Quot.sound]
'Verif.Props.C67_counterexample' depends on axioms: [propext, Classical.choice, Quot.sound]
'Verif.Props.C68_stations' depends on axioms: [propext, Quot.sound]
'Verif.Props.C69_isolated' depends on axioms: [propext, Quot.sound]
'Verif.Props.C69_fresh' depends on axioms: [propext, Quot.sound]
'Verif.Props.C69_answers' depends on axioms: [propext, Quot.sound]
'Verif.Props.C70_accepts' depends on axioms: [propext, Classical.choice, Quot.sound]
'Verif.Props.C70_canonical' depends on axioms: [propext, Classical.choice, Quot.sound]
'Verif.Props.C70_keyword_order' depends on axioms: [propext, Classical.choice, Quot.sound]
'Verif.Props.C70_position_or_keyword' depends on axioms: [propext, Classical.choice, Quot.sound]
'Verif.Props.C70_default' depends on axioms: [propext, Classical.choice, Quot.sound]
'Verif.Props.C70_appended' depends on axioms: [propext, Classical.choice, Quot.sound]
'Verif.Props.C70_transparent_partial' depends on axioms: [propext, Classical.choice, Quot.sound]
'Verif.Props.C70_computable' depends on axioms: [propext, Classical.choice, Quot.sound]
'Verif.Props.C70_counterexample' depends on axioms: [propext, Classical.choice, Quot.sound]
'Verif.Props.C71_one_component' depends on axioms: [propext, Classical.choice, Quot.sound]
'Verif.Props.C72_two_components' depends on axioms: [propext, Classical.choice, Quot.sound]
'Verif.Props.C73_rotation_one' depends on axioms: [propext, Classical.choice, Quot.sound]
'Verif.Props.C73_rotation_two' depends on axioms: [propext, Classical.choice, Quot.sound]
'Verif.Props.C74_counterexample' depends on axioms: [propext, Classical.choice, Quot.sound]
'Verif.Props.C74_short' depends on axioms: [propext, Classical.choice, Quot.sound]
'Verif.Props.C74_methods_partial' depends on axioms: [propext, Classical.choice, Quot.sound]
'Verif.Props.C75_pairing_partial' depends on axioms: [propext, Classical.choice, Quot.sound]
'Verif.Props.C75_counterexample' depends on axioms: [propext, Classical.choice, Quot.sound]
'Verif.Props.C76_layout_partial' depends on axioms: [propext, Classical.choice, Quot.sound]
'Verif.Props.C76_counterexample_components' depends on axioms: [propext, Classical.choice, Quot.sound]
'Verif.Props.C76_distance_stays' depends on axioms: [propext, Classical.choice, Quot.sound]
'Verif.Props.C77_comments' depends on axioms: [propext, Quot.sound]
'Verif.Props.C77_unchanged' depends on axioms: [propext, Quot.sound]
'Verif.Props.C77_no_hash' depends on axioms: [propext, Quot.sound]
'Verif.Props.C77_idempotent' depends on axioms: [propext, Quot.sound]
'Verif.Props.C77_lines' depends on axioms: [propext, Quot.sound]
'Verif.Props.C77_strings_partial' depends on axioms: [propext, Quot.sound]
'Verif.Props.C77_counterexample' depends on axioms: [propext, Classical.choice, Quot.sound]
'Verif.Props.C78_override' depends on axioms: [propext, Classical.choice, Quot.sound]
'Verif.Props.C78_conf_read' depends on axioms: [propext, Classical.choice, Quot.sound]
'Verif.Props.C78_conf_print' depends on axioms: [propext, Classical.choice, Quot.sound]
'Verif.Props.C78_no_conf' depends on axioms: [propext, Classical.choice, Quot.sound]
'Verif.Props.C78_bad_conf' depends on axioms: [propext, Classical.choice, Quot.sound]
'Verif.Props.C78_effect_partial' depends on axioms: [propext, Quot.sound]
'Verif.Props.C78_phase' depends on axioms: [propext, Quot.sound]
'Verif.Props.C78_counterexample' depends on axioms: [propext, Classical.choice, Quot.sound]
'Verif.Props.C78_print_nothing' depends on axioms: [propext, Classical.choice, Quot.sound]
'Verif.Props.C78_phase_null' depends on axioms: [propext, Quot.sound]
'Verif.Props.C78_phase_given' depends on axioms: [propext, Quot.sound]
'Verif.Props.C79_unknown' depends on axioms: [propext, Quot.sound]
'Verif.Props.C79_known' depends on axioms: [propext, Quot.sound]
'Verif.Props.C79_repeated_partial' depends on axioms: [propext, Classical.choice, Quot.sound]
'Verif.Props.C79_others' depends on axioms: [propext, Classical.choice, Quot.sound]
'Verif.Props.C79_counterexample' depends on axioms: [propext, Classical.choice, Quot.sound]
'Verif.Props.C80_files_partial' depends on axioms: [propext]
'Verif.Props.C80_never_given' depends on axioms: [propext]
'Verif.Props.C80_counterexample' depends on axioms: [propext]
'Verif.Props.C81_sac' depends on axioms: [propext, Classical.choice, Quot.sound]
'Verif.Props.C81_q' depends on axioms: [propext, Classical.choice, Quot.sound]
'Verif.Props.C81_stack' depends on axioms: [propext, Classical.choice, Quot.sound]
'Verif.Props.C81_profile' depends on axioms: [propext, Classical.choice, Quot.sound]
'Verif.Props.C82_empty' depends on axioms: [propext, Classical.choice, Quot.sound]
'Verif.Props.C82_sac' depends on axioms: [propext, Classical.choice, Quot.sound]
'Verif.Props.C82_single' depends on axioms: [propext, Classical.choice, Quot.sound]
'Verif.Props.C82_unknown' depends on axioms: [propext, Classical.choice, Quot.sound]
'Verif.Props.C82_keeps' depends on axioms: [propext, Classical.choice, Quot.sound]
'Verif.Props.C83_curves' depends on axioms: [propext, Classical.choice, Quot.sound]
'Verif.Props.C83_bound' depends on axioms: [propext, Classical.choice, Quot.sound]
'Verif.Props.C83_attained_trace' depends on axioms: [propext, Classical.choice, Quot.sound]
'Verif.Props.C83_attained_global' depends on axioms: [propext, Classical.choice, Quot.sound]
'Verif.Props.C83_filling' depends on axioms: [propext, Classical.choice, Quot.sound]
'Verif.Props.C83_harmonics_left' depends on axioms: [propext, Classical.choice, Quot.sound]
'Verif.Props.C83_harmonics_unmodelled' depends on axioms: [propext, Classical.choice, Quot.sound]
'Verif.Props.C83_harmonics_right_partial' depends on axioms: [propext, Classical.choice, Quot.sound]
'Verif.Props.C83_counterexample' depends on axioms: [propext, Classical.choice, Quot.sound]
'Verif.Props.C83_profile' depends on axioms: [propext, Classical.choice, Quot.sound]
'Verif.Props.C84_full' depends on axioms: [propext, Classical.choice, Quot.sound]
'Verif.Props.C84_component' depends on axioms: [propext, Classical.choice, Quot.sound]
'Verif.Props.C84_station' depends on axioms: [propext, Classical.choice, Quot.sound]
'Verif.Props.C84_none' depends on axioms: [propext, Classical.choice, Quot.sound]
'Verif.Props.C85_metadata' depends on axioms: [propext, Quot.sound]
'Verif.Props.C86_alias' depends on axioms: [propext, Classical.choice, Quot.sound]
'Verif.Props.C86_kernel_call' depends on axioms: [propext, Classical.choice, Quot.sound]
'Verif.Props.C87_untouched' depends on axioms: [propext, Classical.choice, Quot.sound]
'Verif.Props.C87_rate_partial' depends on axioms: [propext, Classical.choice, Quot.sound]
'Verif.Props.C87_bounds' depends on axioms: [propext, Classical.choice, Quot.sound]
'Verif.Props.C87_counterexample' depends on axioms: [propext, Classical.choice, Quot.sound]
'Verif.Props.C88_source_P' depends on axioms: [propext, Classical.choice, Quot.sound]
'Verif.Props.C88_source_S' depends on axioms: [propext, Classical.choice, Quot.sound]
'Verif.Props.C88_window' depends on axioms: [propext, Classical.choice, Quot.sound]
'Verif.Props.C88_method' depends on axioms: [propext, Classical.choice, Quot.sound]
'Verif.Props.C89_estimate_partial' depends on axioms: [propext, Classical.choice, Quot.sound]
'Verif.Props.C89_tail_unused' depends on axioms: [propext, Classical.choice, Quot.sound]
'Verif.Props.C89_counterexample' depends on axioms: [propext, Classical.choice, Quot.sound]
'Verif.Props.C90_middle' depends on axioms: [propext, Classical.choice, Quot.sound]
'Verif.Props.C90_middle_plane' depends on axioms: [propext, Classical.choice, Quot.sound]
'Verif.Props.C90_headers' depends on axioms: [propext, Classical.choice, Quot.sound]
'Verif.Props.C91_rf' depends on axioms: [propext, Classical.choice, Quot.sound]
'Verif.Props.C91_profile' depends on axioms: [propext, Classical.choice, Quot.sound]
'Verif.Props.C91_no_type' depends on axioms: [propext, Classical.choice, Quot.sound]
'Verif.Props.C91_unknown' depends on axioms: [propext, Classical.choice, Quot.sound]
'Verif.Props.C92_default' depends on axioms: [propext, Classical.choice, Quot.sound]
'Verif.Props.C92_explicit' depends on axioms: [propext, Classical.choice, Quot.sound]
'Verif.Props.C92_no_depth' depends on axioms: [propext, Classical.choice, Quot.sound]
'Verif.Props.C93_processed' depends on axioms: [propext, Classical.choice, Quot.sound]
'Verif.Props.C93_run' depends on axioms: [propext, Classical.choice, Quot.sound]
'Verif.Props.C93_stop' depends on axioms: [propext, Classical.choice, Quot.sound]
'Verif.Props.C93_rejected' depends on axioms: [propext, Classical.choice, Quot.sound]
'Verif.Props.C94_abort' depends on axioms: [propext, Classical.choice, Quot.sound]
'Verif.Props.C94_no_failure_partial' depends on axioms: [propext, Classical.choice, Quot.sound]
'Verif.Props.C94_prefix' depends on axioms: [propext, Classical.choice, Quot.sound]
'Verif.Props.C94_counterexample' depends on axioms: [propext, Classical.choice, Quot.sound]
'Verif.Props.C95_default_partial' depends on axioms: [propext, Classical.choice, Quot.sound]
'Verif.Props.C95_edges_partial' depends on axioms: [propext, Classical.choice, Quot.sound]
'Verif.Props.C95_counterexample' depends on axioms: [propext, Classical.choice, Quot.sound]
'Verif.Props.C96_create' depends on axioms: [propext, Classical.choice, Quot.sound]
'Verif.Props.C96_where' depends on axioms: [propext, Classical.choice, Quot.sound]
'Verif.Props.C97_directory_partial' depends on axioms: [propext, Classical.choice, Quot.sound]
'Verif.Props.C97_parents' depends on axioms: [propext, Classical.choice, Quot.sound]
'Verif.Props.C97_dirname' depends on axioms: [propext, Quot.sound]
'Verif.Props.C97_counterexample' depends on axioms: [propext, Classical.choice, Quot.sound]
'Verif.Props.C98_sac' depends on axioms: [propext, Classical.choice, Quot.sound]
'Verif.Props.C98_sac_station' depends on axioms: [propext, Classical.choice, Quot.sound]
'Verif.Props.C98_q' depends on axioms: [propext, Classical.choice, Quot.sound]
'Verif.Props.C98_h5' depends on axioms: [propext, Classical.choice, Quot.sound]
'Verif.Props.C98_profile' depends on axioms: [propext, Classical.choice, Quot.sound]
'Verif.Props.C99_processed_partial' depends on axioms: [propext, Classical.choice, Quot.sound]
'Verif.Props.C99_counterexample' depends on axioms: [propext, Classical.choice, Quot.sound]
'Verif.Props.C100_layout' depends on axioms: [propext, Classical.choice, Quot.sound]
'Verif.Props.C100_height' depends on axioms: [propext, Classical.choice, Quot.sound]
'Verif.Props.C101_times' depends on axioms: [propext, Classical.choice, Quot.sound]
'Verif.Props.C101_amplitudes' depends on axioms: [propext, Classical.choice, Quot.sound]
'Verif.Props.C102_stack_partial' depends on axioms: [propext, Classical.choice, Quot.sound]
'Verif.Props.C102_counterexample' depends on axioms: [propext, Classical.choice, Quot.sound]
'Verif.Props.C103_vlines_partial' depends on axioms: [propext, Classical.choice, Quot.sound]
'Verif.Props.C103_nostack' depends on axioms: [propext, Classical.choice, Quot.sound]
'Verif.Props.C103_fails' depends on axioms: [propext, Classical.choice, Quot.sound]
'Verif.Props.C103_counterexample' depends on axioms: [propext, Classical.choice, Quot.sound]
'Verif.Props.C104_horizontal_partial' depends on axioms: [propext, Classical.choice, Quot.sound]
'Verif.Props.C104_times' depends on axioms: [propext, Classical.choice, Quot.sound]
'Verif.Props.C104_vertical_partial' depends on axioms: [propext, Classical.choice, Quot.sound]
'Verif.Props.C104_counterexample' depends on axioms: [propext, Classical.choice, Quot.sound]
'Verif.Props.C104_fill' depends on axioms: [propext, Quot.sound]
'Verif.Props.C105_shifted_partial' depends on axioms: [propext, Classical.choice, Quot.sound]
'Verif.Props.C105_other' depends on axioms: [propext, Classical.choice, Quot.sound]
'Verif.Props.C105_counterexample' depends on axioms: [propext, Classical.choice, Quot.sound]
'Verif.Props.C106_given_partial' depends on axioms: [propext, Quot.sound]
'Verif.Props.C106_model_partial' depends on axioms: [propext, Classical.choice, Quot.sound]
'Verif.Props.C106_sp_partial' depends on axioms: [propext, Classical.choice, Quot.sound]
'Verif.Props.C106_counterexample' depends on axioms: [propext, Classical.choice, Quot.sound]
'Verif.Props.C106_table_partial' depends on axioms: [propext, Classical.choice, Quot.sound]
'Verif.Props.C107_panels' depends on axioms: [propext, Classical.choice, Quot.sound]
'Verif.Props.C107_short' depends on axioms: [propext, Classical.choice, Quot.sound]
'Verif.Props.C107_digits' depends on axioms: [propext, Quot.sound]
'Verif.Props.C107_labels' depends on axioms: [propext, Classical.choice, Quot.sound]
'Verif.Props.C107_untrimmed' depends on axioms: [propext, Classical.choice, Quot.sound]
'Verif.Props.C108_info' depends on axioms: [propext, Quot.sound]
'Verif.Props.C108_limits' depends on axioms: [propext, Quot.sound]
'Verif.Props.C108_figure' depends on axioms: [propext, Classical.choice, Quot.sound]
'Verif.Props.C109_print_partial' depends on axioms: [propext, Classical.choice, Quot.sound]
'Verif.Props.C109_counterexample' depends on axioms: [propext, Classical.choice, Quot.sound]
'Verif.Props.C109_cli' depends on axioms: [propext, Classical.choice, Quot.sound]
'Verif.Props.C110_wildcard' depends on axioms: [propext, Quot.sound]
'Verif.Props.C110_plot' depends on axioms: [propext, Classical.choice, Quot.sound]
'Verif.Props.C110_missing' depends on axioms: [propext, Classical.choice, Quot.sound]
'Verif.Props.C110_profile' depends on axioms: [propext, Classical.choice, Quot.sound]
'Verif.Props.C111_stations' depends on axioms: [propext, Classical.choice, Quot.sound]
'Verif.Props.C111_events' depends on axioms: [propext, Classical.choice, Quot.sound]
'Verif.Props.C111_source' depends on axioms: [propext, Classical.choice, Quot.sound]
'Verif.Props.C111_convert' depends on axioms: [propext, Classical.choice, Quot.sound]
'Verif.Props.C111_stack' depends on axioms: [propext, Classical.choice, Quot.sound]
'Verif.Props.C111_stack_stop' depends on axioms: [propext, Classical.choice, Quot.sound]
'Verif.Props.C111_plots' depends on axioms: [propext, Classical.choice, Quot.sound]
'Verif.Props.C111_profile' depends on axioms: [propext, Classical.choice, Quot.sound]
'Verif.Props.C111_process' depends on axioms: [propext, Classical.choice, Quot.sound]
'Verif.Props.C111_unknown' depends on axioms: [propext, Classical.choice, Quot.sound]
'Verif.Props.C112_points_partial' depends on axioms: [propext, Classical.choice, Quot.sound]
'Verif.Props.C112_default_phase' depends on axioms: [propext, Classical.choice, Quot.sound]
'Verif.Props.C112_counterexample' depends on axioms: [propext, Classical.choice, Quot.sound]
'Verif.Props.C113_failure_partial' depends on axioms: [propext, Classical.choice, Quot.sound]
'Verif.Props.C113_success' depends on axioms: [propext, Classical.choice, Quot.sound]
'Verif.Props.C113_counterexample' depends on axioms: [propext, Classical.choice, Quot.sound]
'Verif.Props.C114_after_moveout_partial' depends on axioms: [propext, Classical.choice, Quot.sound]
'Verif.Props.C114_counterexample' depends on axioms: [propext, Classical.choice, Quot.sound]
'Verif.Props.C115_first_call' depends on axioms: [propext, Classical.choice, Quot.sound]
'Verif.Props.C115_cached' depends on axioms: [propext, Classical.choice, Quot.sound]
'Verif.Props.C115_rounding' depends on axioms: [propext, Classical.choice, Quot.sound]
'Verif.Props.C116_lists_partial' depends on axioms: [propext, Classical.choice, Quot.sound]
'Verif.Props.C116_counterexample' depends on axioms: [propext, Classical.choice, Quot.sound]
'Verif.Props.C117_repeatable' depends on axioms: [propext, Classical.choice, Quot.sound]
'Verif.Props.C117_twice_partial' depends on axioms: [propext, Classical.choice, Quot.sound]
'Verif.Props.C117_counterexample' depends on axioms: [propext, Classical.choice, Quot.sound]
'Verif.Props.C118_same_ref_partial' depends on axioms: [propext, Classical.choice, Quot.sound]
'Verif.Props.C118_each_trace' depends on axioms: [propext, Classical.choice, Quot.sound]
'Verif.Props.C118_succeeds' depends on axioms: [propext, Classical.choice, Quot.sound]
'Verif.Props.C118_counterexample' depends on axioms: [propext, Classical.choice, Quot.sound]
'Verif.Props.C119_range' depends on axioms: [propext, Classical.choice, Quot.sound]
'Verif.Props.C119_wildcards' depends on axioms: [propext, Classical.choice, Quot.sound]
'Verif.Props.C119_client' depends on axioms: [propext, Classical.choice, Quot.sound]
'Verif.Props.C119_plugin' depends on axioms: [propext, Classical.choice, Quot.sound]
'Verif.Props.C119_files' depends on axioms: [propext, Classical.choice, Quot.sound]
'Verif.Props.C119_never_raises' depends on axioms: [propext, Classical.choice, Quot.sound]
'Verif.Props.C119_errors' depends on axioms: [propext, Classical.choice, Quot.sound]
'Verif.Props.C120_reported_partial' depends on axioms: [propext, Classical.choice, Quot.sound]
'Verif.Props.C120_example' depends on axioms: [propext, Classical.choice, Quot.sound]
'Verif.Props.C120_counterexample' depends on axioms: [propext, Classical.choice, Quot.sound]
'Verif.Props.C121_restored_partial' depends on axioms: [propext]
'Verif.Props.C121_failed' does not depend on any axioms
'Verif.Props.C121_foreign' depends on axioms: [propext]
'Verif.Props.C121_counterexample' depends on axioms: [propext, Classical.choice, Quot.sound]
'Verif.Props.C122_nothing' depends on axioms: [propext, Classical.choice, Quot.sound]
'Verif.Props.C122_plain_partial' depends on axioms: [propext, Classical.choice, Quot.sound]
'Verif.Props.C122_counterexample' depends on axioms: [propext, Classical.choice, Quot.sound]
'Verif.Props.C123_commands' depends on axioms: [propext, Classical.choice, Quot.sound]
'Verif.Props.C123_paths' depends on axioms: [propext, Classical.choice, Quot.sound]
'Verif.Props.C123_print' depends on axioms: [propext, Classical.choice, Quot.sound]
'Verif.Props.C123_unknown' depends on axioms: [propext, Classical.choice, Quot.sound]
'Verif.Props.C123_known' depends on axioms: [propext, Classical.choice, Quot.sound]
'Verif.Props.C123_run' depends on axioms: [propext, Classical.choice, Quot.sound]
'Verif.Props.C124_no_command_partial' depends on axioms: [propext, Classical.choice, Quot.sound]
'Verif.Props.C124_counterexample' depends on axioms: [propext, Classical.choice, Quot.sound]
'Verif.Props.C125_traces' depends on axioms: [propext, Classical.choice, Quot.sound]
'Verif.Props.C125_idempotent' depends on axioms: [propext, Classical.choice, Quot.sound]
'Verif.Props.C125_single' depends on axioms: [propext, Classical.choice, Quot.sound]
'Verif.Props.C125_error' depends on axioms: [propext, Classical.choice, Quot.sound]
'Verif.Props.C125_read' depends on axioms: [propext, Classical.choice, Quot.sound]
'Verif.Props.C126_plain' depends on axioms: [propext, Classical.choice, Quot.sound]
'Verif.Props.C126_parts' depends on axioms: [propext, Classical.choice, Quot.sound]
'Verif.Props.C126_after_rf' depends on axioms: [propext, Classical.choice, Quot.sound]
'Verif.Props.C126_profile' depends on axioms: [propext, Classical.choice, Quot.sound]
'Verif.Props.C126_total' depends on axioms: [propext, Classical.choice, Quot.sound]
'Verif.Props.C127_stream' depends on axioms: [propext, Classical.choice, Quot.sound]
'Verif.Props.C127_inventory' depends on axioms: [propext, Classical.choice, Quot.sound]
'Verif.Props.C127_inventory_once_partial' depends on axioms: [propext, Classical.choice, Quot.sound]
'Verif.Props.C127_counterexample' depends on axioms: [propext, Classical.choice, Quot.sound]
'Verif.Props.C127_errors' depends on axioms: [propext, Classical.choice, Quot.sound]
'Verif.Props.C128_centre_partial' depends on axioms: [propext, Classical.choice, Quot.sound]
'Verif.Props.C128_order' depends on axioms: [propext, Classical.choice, Quot.sound]
'Verif.Props.C128_given' depends on axioms: [propext, Classical.choice, Quot.sound]
'Verif.Props.C128_counterexample' depends on axioms: [propext, Classical.choice, Quot.sound]
'Verif.Props.C129_style' depends on axioms: [propext, Classical.choice, Quot.sound]
'Verif.Props.C129_ppoints' depends on axioms: [propext, Classical.choice, Quot.sound]
'Verif.Props.C129_profile' depends on axioms: [propext, Classical.choice, Quot.sound]
'Verif.Props.C129_success' depends on axioms: [propext, Classical.choice, Quot.sound]
'Verif.Props.C129_errors' depends on axioms: [propext, Classical.choice, Quot.sound]
'Verif.Props.C130_records_partial' depends on axioms: [propext, Classical.choice, Quot.sound]
'Verif.Props.C130_one_phase' depends on axioms: [propext, Classical.choice, Quot.sound]
'Verif.Props.C130_counterexample' depends on axioms: [propext, Classical.choice, Quot.sound]
'Verif.Props.C131_success' depends on axioms: [propext, Classical.choice, Quot.sound]
'Verif.Props.C132_stream' depends on axioms: [propext, Classical.choice, Quot.sound]
'Verif.Props.C132_rf_partial' depends on axioms: [propext, Classical.choice, Quot.sound]
'Verif.Props.C132_processing' depends on axioms: [propext, Classical.choice, Quot.sound]
'Verif.Props.C132_counterexample' depends on axioms: [propext, Classical.choice, Quot.sound]
'Verif.Props.C133_time' depends on axioms: [propext, Quot.sound]
'Verif.Props.C133_waterlevel_partial' depends on axioms: [propext, Classical.choice, Quot.sound]
'Verif.Props.C133_waterlevel_counterexample' depends on axioms: [propext, Classical.choice, Quot.sound]
'Verif.Props.C133_iterative_counterexample' depends on axioms: [propext, Classical.choice, Quot.sound]
'Verif.Props.C134_results' depends on axioms: [propext, Classical.choice, Quot.sound]
'Verif.Props.C134_src_partial' depends on axioms: [propext, Classical.choice, Quot.sound]
'Verif.Props.C134_counterexample' depends on axioms: [propext, Classical.choice, Quot.sound]
'Verif.Props.C134_counterexample_none' depends on axioms: [propext, Classical.choice, Quot.sound]
'Verif.Props.C135_any_source' depends on axioms: [propext, Classical.choice, Quot.sound]
'Verif.Props.C135_recovers' depends on axioms: [propext, Classical.choice, Quot.sound]
'Verif.Props.C135_linear' depends on axioms: [propext, Classical.choice, Quot.sound]
'Verif.Props.C136_one_spike' depends on axioms: [propext, Classical.choice, Quot.sound]
'Verif.Props.C136_position' depends on axioms: [propext, Classical.choice, Quot.sound]
'Verif.Props.C136_pulse' depends on axioms: [propext, Classical.choice, Quot.sound]
'Verif.Props.C137_kernels' depends on axioms: [propext, Classical.choice, Quot.sound]
'Verif.Props.C137_same_outcome' depends on axioms: [propext, Classical.choice, Quot.sound]
'Verif.Props.C137_same_result' depends on axioms: [propext, Classical.choice, Quot.sound]
'Verif.Props.C137_not_normalized' depends on axioms: [propext, Classical.choice, Quot.sound]
'Verif.Props.C138_later' depends on axioms: [propext, Classical.choice, Quot.sound]
'Verif.Props.C138_moveout' depends on axioms: [propext, Classical.choice, Quot.sound]
'Verif.Props.C138_stack' depends on axioms: [propext, Quot.sound]
'Verif.Props.C139_linear' depends on axioms: [propext, Classical.choice, Quot.sound]
'Verif.Props.C139_mean' depends on axioms: [propext, Classical.choice, Quot.sound]
'Verif.Props.C140_rf_partial' depends on axioms: [propext, Classical.choice, Quot.sound]
'Verif.Props.C140_profile_partial' depends on axioms: [propext, Classical.choice, Quot.sound]
'Verif.Props.C140_stack_partial' depends on axioms: [propext, Classical.choice, Quot.sound]
'Verif.Props.C140_harmonics_fails' depends on axioms: [propext, Classical.choice, Quot.sound]
'Verif.Props.C140_counterexample' depends on axioms: [propext, Classical.choice, Quot.sound]
'Verif.Props.C141_twice' depends on axioms: [propext, Classical.choice, Quot.sound]
'Verif.Props.C142_equation' depends on axioms: [propext, Classical.choice, Quot.sound]
'Verif.Props.C142_exact' depends on axioms: [propext, Classical.choice, Quot.sound]
'Verif.Props.C142_bound' depends on axioms: [propext, Classical.choice, Quot.sound]
'Verif.Props.C143_waterlevel' depends on axioms: [propext, Classical.choice, Quot.sound]
'Verif.Props.C143_time' depends on axioms: [propext, Classical.choice, Quot.sound]
'Verif.Props.C144_kernels' depends on axioms: [propext, Classical.choice, Quot.sound]
'Verif.Props.C144_counterexample' depends on axioms: [propext, Classical.choice, Quot.sound]
'Verif.Props.C144_order_partial' depends on axioms: [propext, Classical.choice, Quot.sound]
'Verif.Props.C145_record' depends on axioms: [propext, Classical.choice, Quot.sound]
'Verif.Props.C146_waterlevel' depends on axioms: [propext, Classical.choice, Quot.sound]
'Verif.Props.C146_time' depends on axioms: [propext, Classical.choice, Quot.sound]
'Verif.Props.C147_returns_iff' depends on axioms: [propext, Classical.choice, Quot.sound]
'Verif.Props.C147_waterlevel' depends on axioms: [propext, Classical.choice, Quot.sound]
'Verif.Props.C148_failed' depends on axioms: [propext, Classical.choice, Quot.sound]
'Verif.Props.C149_bins' depends on axioms: [propext, Classical.choice, Quot.sound]
'Verif.Props.C149_both' depends on axioms: [propext, Classical.choice, Quot.sound]
'Verif.Props.C149_one' depends on axioms: [propext, Classical.choice, Quot.sound]
'Verif.Props.C150_linear' depends on axioms: [propext, Classical.choice, Quot.sound]
'Verif.Props.C151_one_component' depends on axioms: [propext, Classical.choice, Quot.sound]
'Verif.Props.C151_two_components' depends on axioms: [propext, Classical.choice, Quot.sound]
'Verif.Props.C152_turns' depends on axioms: [propext, Classical.choice, Quot.sound]
'Verif.Props.C152_order' depends on axioms: [propext, Classical.choice, Quot.sound]
'Verif.Props.C152_order_one' depends on axioms: [propext, Classical.choice, Quot.sound]
'Verif.Props.C153_sublist' depends on axioms: [propext, Classical.choice, Quot.sound]
'Verif.Props.C153_failure' depends on axioms: [propext, Quot.sound]
'Verif.Props.C153_bad_code' depends on axioms: [propext, Quot.sound]
'Verif.Props.C154_q' depends on axioms: [propext, Classical.choice, Quot.sound]
'Verif.Props.C154_sac' depends on axioms: [propext, Classical.choice, Quot.sound]
'Verif.Props.C155_derivative' depends on axioms: [propext, Classical.choice, Quot.sound]
'Verif.Props.C156_direction' depends on axioms: [propext, Classical.choice, Quot.sound]
'Verif.Props.C157_between_samples' depends on axioms: [propext, Classical.choice, Quot.sound]
'Verif.Props.C158_coherent' depends on axioms: [propext, Classical.choice, Quot.sound]
'Verif.Props.C158_succeeds' depends on axioms: [propext, Classical.choice, Quot.sound]
'Verif.Props.C158_time' depends on axioms: [propext, Classical.choice, Quot.sound]
'Verif.Props.C159_misfit' depends on axioms: [propext, Classical.choice, Quot.sound]
'Verif.Props.C159_converges' depends on axioms: [propext, Classical.choice, Quot.sound]
'Verif.Props.C159_limit' depends on axioms: [propext, Classical.choice, Quot.sound]
'Verif.Props.C160_wrap' depends on axioms: [propext, Quot.sound]
'Verif.Props.C160_rebind' depends on axioms: [propext, Quot.sound]
'Verif.Props.C160_values' depends on axioms: [propext, Classical.choice, Quot.sound]
'Verif.Props.C160_others_partial' depends on axioms: [propext, Classical.choice, Quot.sound]
'Verif.Props.C160_counterexample' depends on axioms: [propext, Classical.choice, Quot.sound]
'Verif.Props.C161_step_partial' depends on axioms: [propext, Classical.choice, Quot.sound]
'Verif.Props.C161_cast' depends on axioms: [propext, Classical.choice, Quot.sound]
'Verif.Props.C161_counterexample' depends on axioms: [propext, Classical.choice, Quot.sound]
'Verif.Props.C162_index_partial' depends on axioms: [propext, Classical.choice, Quot.sound]
'Verif.Props.C162_dyadic' depends on axioms: [propext, Classical.choice, Quot.sound]
'Verif.Props.C162_samples_partial' depends on axioms: [propext, Classical.choice, Quot.sound]
'Verif.Props.C162_counterexample' depends on axioms: [propext, Classical.choice, Quot.sound]
'Verif.Props.C163_live_record' depends on axioms: [propext, Classical.choice, Quot.sound]
'Verif.Props.C163_returns_iff' depends on axioms: [propext, Classical.choice, Quot.sound]
'Verif.Props.C163_same' depends on axioms: [propext, Classical.choice, Quot.sound]
'Verif.Props.C163_others' depends on axioms: [propext, Classical.choice, Quot.sound]
'Verif.Props.C163_zero_source' depends on axioms: [propext, Classical.choice, Quot.sound]
'Verif.Props.C164_other_ids_partial' depends on axioms: [propext, Classical.choice, Quot.sound]
'Verif.Props.C164_poisoned' depends on axioms: [propext, Classical.choice, Quot.sound]
'Verif.Props.C164_counterexample' depends on axioms: [propext, Classical.choice, Quot.sound]
'Verif.Props.C165_stack' depends on axioms: [propext, Classical.choice, Quot.sound]
'Verif.Props.C165_pipeline' depends on axioms: [propext, Classical.choice, Quot.sound]
'Verif.Props.C166_meridian' depends on axioms: [propext, Classical.choice, Quot.sound]
'Verif.Props.C166_counterexample' depends on axioms: [propext, Classical.choice, Quot.sound]
'Verif.Props.C166_equator_partial' depends on axioms: [propext, Classical.choice, Quot.sound]
'Verif.Props.C166_overlap' depends on axioms: [propext, Classical.choice, Quot.sound]
'Verif.Props.C166_wrong_box' depends on axioms: [propext, Classical.choice, Quot.sound]
'Verif.Props.C167_bin' depends on axioms: [propext, Classical.choice, Quot.sound]
'Verif.Props.C167_pipeline' depends on axioms: [propext, Classical.choice, Quot.sound]
'Verif.Props.C168_one_component' depends on axioms: [propext, Classical.choice, Quot.sound]
'Verif.Props.C168_stack' depends on axioms: [propext, Classical.choice, Quot.sound]
'Verif.Props.C168_two_components_partial' depends on axioms: [propext, Classical.choice, Quot.sound]
'Verif.Props.C168_counterexample' depends on axioms: [propext, Classical.choice, Quot.sound]
'Verif.Props.C169_components' depends on axioms: [propext, Classical.choice, Quot.sound]
'Verif.Props.C169_scalars' depends on axioms: [propext, Classical.choice, Quot.sound]
'Verif.Props.C170_never' depends on axioms: [propext, Classical.choice, Quot.sound]
'Verif.Props.C170_error' depends on axioms: [propext, Classical.choice, Quot.sound]
'Verif.Props.C170_commutes_partial' depends on axioms: [propext, Classical.choice, Quot.sound]
'Verif.Props.C170_counterexample' depends on axioms: [propext, Classical.choice, Quot.sound]
'Verif.Props.C171_weighted' depends on axioms: [propext, Classical.choice, Quot.sound]
'Verif.Props.C171_same' depends on axioms: [propext, Classical.choice, Quot.sound]
'Verif.Props.C172_time_partial' depends on axioms: [propext, Classical.choice, Quot.sound]
'Verif.Props.C172_waterlevel_partial' depends on axioms: [propext, Classical.choice, Quot.sound]
'Verif.Props.C172_multitaper_partial' depends on axioms: [propext, Classical.choice, Quot.sound]
'Verif.Props.C172_counterexample' depends on axioms: [propext, Classical.choice, Quot.sound]
'Verif.Props.C173_first' depends on axioms: [propext, Classical.choice, Quot.sound]
'Verif.Props.C173_commutes_partial' depends on axioms: [propext, Classical.choice, Quot.sound]
'Verif.Props.C173_counterexample' depends on axioms: [propext, Classical.choice, Quot.sound]
'Verif.Props.C174_pulse' depends on axioms: [propext, Classical.choice, Quot.sound]
'Verif.Props.C174_train' depends on axioms: [propext, Classical.choice, Quot.sound]
'Verif.Props.C175_tables' depends on axioms: [propext, Classical.choice, Quot.sound]
'Verif.Props.C175_moveout' depends on axioms: [propext, Classical.choice, Quot.sound]
'Verif.Props.C175_conversion' depends on axioms: [propext, Classical.choice, Quot.sound]
'Verif.Props.C176_loads' depends on axioms: [propext, Classical.choice, Quot.sound]
'Verif.Props.C177_trace' depends on axioms: [propext, Classical.choice, Quot.sound]
'Verif.Props.C177_stream' depends on axioms: [propext, Classical.choice, Quot.sound]
'Verif.Props.C178_error_partial' depends on axioms: [propext, Classical.choice, Quot.sound]
'Verif.Props.C178_counterexample' depends on axioms: [propext, Classical.choice, Quot.sound]
'Verif.Props.C179_kernel' depends on axioms: [propext, Classical.choice, Quot.sound]
'Verif.Props.C179_waterlevel' depends on axioms: [propext, Classical.choice, Quot.sound]
'Verif.Props.C179_time_partial' depends on axioms: [propext, Classical.choice, Quot.sound]
'Verif.Props.C179_counterexample' depends on axioms: [propext, Classical.choice, Quot.sound]
'Verif.Props.C180_number' depends on axioms: [propext, Quot.sound]
'Verif.Props.C180_json' depends on axioms: [propext, Classical.choice, Quot.sound]
'Verif.Props.C180_trailing' depends on axioms: [propext, Classical.choice, Quot.sound]
'Verif.Props.C180_headers' depends on axioms: [propext, Classical.choice, Quot.sound]
'Verif.Props.C180_time' depends on axioms: [propext, Classical.choice, Quot.sound]
'Verif.Props.C180_jsonOk' depends on axioms: [propext, Classical.choice, Quot.sound]
'Verif.Props.C180_q' depends on axioms: [propext, Classical.choice, Quot.sound]
'Verif.Props.C180_printable' depends on axioms: [propext, Classical.choice, Quot.sound]
'Verif.Props.C180_last' depends on axioms: [propext, Classical.choice, Quot.sound]
'Verif.Props.C181_no_object' depends on axioms: [propext, Classical.choice, Quot.sound]
'Verif.Props.C181_loads' depends on axioms: [propext, Classical.choice, Quot.sound]
'Verif.Props.C181_run' depends on axioms: [propext, Classical.choice, Quot.sound]
'Verif.Props.C181_prepare' depends on axioms: [propext, Classical.choice, Quot.sound]
'Verif.Props.C181_tutorial' depends on axioms: [propext, Classical.choice, Quot.sound]
'Verif.Props.C181_tutorial_default' depends on axioms: [propext, Classical.choice, Quot.sound]
'Verif.Props.C181_last' depends on axioms: [propext, Classical.choice, Quot.sound]
'Verif.Props.C182_read_partial' depends on axioms: [propext, Classical.choice, Quot.sound]
'Verif.Props.C182_stops_partial' depends on axioms: [propext, Classical.choice, Quot.sound]
'Verif.Props.C182_comma_partial' depends on axioms: [propext, Classical.choice, Quot.sound]
'Verif.Props.C182_counterexample' depends on axioms: [propext, Classical.choice, Quot.sound]
'Verif.Props.C182_water' does not depend on any axioms
'Verif.Props.C183_accepted' depends on axioms: [propext, Classical.choice, Quot.sound]
'Verif.Props.C183_refused' depends on axioms: [propext, Classical.choice, Quot.sound]
'Verif.Props.C183_rf_accepted' depends on axioms: [propext, Classical.choice, Quot.sound]
'Verif.Props.C183_rf_partial' depends on axioms: [propext, Classical.choice, Quot.sound]
'Verif.Props.C183_silent_partial' depends on axioms: [propext, Classical.choice, Quot.sound]
'Verif.Props.C183_options' depends on axioms: [propext, Quot.sound]
'Verif.Props.C183_all' depends on axioms: [propext, Quot.sound]
'Verif.Props.C183_counterexample' depends on axioms: [propext, Classical.choice, Quot.sound]
'Verif.Props.C184_samples_partial' depends on axioms: [propext, Classical.choice, Quot.sound]
'Verif.Props.C184_commutes_partial' depends on axioms: [propext, Classical.choice, Quot.sound]
'Verif.Props.C184_ps_partial' depends on axioms: [propext, Classical.choice, Quot.sound]
'Verif.Props.C184_counterexample' depends on axioms: [propext, Classical.choice, Quot.sound]
'Verif.Props.C185_commutes_partial' depends on axioms: [propext, Classical.choice, Quot.sound]
'Verif.Props.C185_empty_partial' depends on axioms: [propext, Classical.choice, Quot.sound]
'Verif.Props.C185_counterexample' depends on axioms: [propext, Classical.choice, Quot.sound]
'Verif.Props.C186_commutes_partial' depends on axioms: [propext, Classical.choice, Quot.sound]
'Verif.Props.C186_counterexample' depends on axioms: [propext, Classical.choice, Quot.sound]
'Verif.Props.C187_one_component_partial' depends on axioms: [propext, Classical.choice, Quot.sound]
'Verif.Props.C187_two_components_partial' depends on axioms: [propext, Classical.choice, Quot.sound]
'Verif.Props.C187_counterexample' depends on axioms: [propext, Classical.choice, Quot.sound]
'Verif.Props.C188_file_headers_partial' depends on axioms: [propext, Classical.choice, Quot.sound]
'Verif.Props.C188_again_partial' depends on axioms: [propext, Classical.choice, Quot.sound]
'Verif.Props.C188_counterexample' depends on axioms: [propext, Classical.choice, Quot.sound]
'Verif.Props.C188_counterexample_null' depends on axioms: [propext, Classical.choice, Quot.sound]
'Verif.Props.C188_undefined' depends on axioms: [propext, Classical.choice, Quot.sound]
'Verif.Props.C189_sac_partial' depends on axioms: [propext, Classical.choice, Quot.sound]
'Verif.Props.C189_sac_station_partial' depends on axioms: [propext, Classical.choice, Quot.sound]
'Verif.Props.C189_q_partial' depends on axioms: [propext, Classical.choice, Quot.sound]
'Verif.Props.C189_h5_partial' depends on axioms: [propext, Classical.choice, Quot.sound]
'Verif.Props.C189_profile_partial' depends on axioms: [propext, Classical.choice, Quot.sound]
'Verif.Props.C189_counterexample' depends on axioms: [propext, Classical.choice, Quot.sound]
'Verif.Props.C189_counterexample_other' depends on axioms: [propext, Classical.choice, Quot.sound]
'Verif.Props.C190_local' depends on axioms: [propext, Quot.sound]
'Verif.Props.C190_later' depends on axioms: [propext, Quot.sound]
'Verif.Props.C190_gain' depends on axioms: [propext, Quot.sound]
'Verif.Props.C190_perm' depends on axioms: [propext, Classical.choice, Quot.sound]
'Verif.Props.C190_noise' depends on axioms: [propext, Classical.choice, Quot.sound]
'Verif.Props.C190_own' depends on axioms: [propext, Classical.choice, Quot.sound]
'Verif.Props.C190_early' depends on axioms: [propext, Classical.choice, Quot.sound]
'Verif.Props.C190_works_partial' depends on axioms: [propext, Classical.choice, Quot.sound]
'Verif.Props.C190_order' depends on axioms: [propext, Classical.choice, Quot.sound]
'Verif.Props.C190_gain_kernels' depends on axioms: [propext, Classical.choice, Quot.sound]
'Verif.Props.C190_counterexample' depends on axioms: [propext, Classical.choice, Quot.sound]
'Verif.Props.C191_dyadic_partial' depends on axioms: [propext, Classical.choice, Quot.sound]
'Verif.Props.C191_default_partial' depends on axioms: [propext, Classical.choice, Quot.sound]
'Verif.Props.C191_near_partial' depends on axioms: [propext, Classical.choice, Quot.sound]
'Verif.Props.C191_taper' depends on axioms: [propext, Classical.choice, Quot.sound]
'Verif.Props.C191_counterexample' depends on axioms: [propext, Classical.choice, Quot.sound]
'Verif.Props.C192_position' depends on axioms: [propext, Classical.choice, Quot.sound]
'Verif.Props.C192_own_partial' depends on axioms: [propext, Classical.choice, Quot.sound]
'Verif.Props.C192_enough' depends on axioms: [propext, Classical.choice, Quot.sound]
'Verif.Props.C192_counterexample' depends on axioms: [propext, Classical.choice, Quot.sound]
'Verif.Props.C193_rf' depends on axioms: [propext, Classical.choice, Quot.sound]
'Verif.Props.C193_moveout' depends on axioms: [propext, Classical.choice, Quot.sound]
'Verif.Props.C193_stack' depends on axioms: [propext, Quot.sound]
'Verif.Props.C193_saved' depends on axioms: [propext]
'Verif.Props.C193_ppoints' depends on axioms: [propext, Classical.choice, Quot.sound]
'Verif.Props.C193_profile' depends on axioms: [propext, Classical.choice, Quot.sound]
'Verif.Props.C193_harmonics' depends on axioms: [propext, Classical.choice, Quot.sound]
'Verif.Props.C193_files' depends on axioms: [propext, Classical.choice, Quot.sound]
'Verif.Props.C194_profile_partial' depends on axioms: [propext, Classical.choice, Quot.sound]
'Verif.Props.C194_hist_partial' depends on axioms: [propext, Classical.choice, Quot.sound]
'Verif.Props.C194_rf' depends on axioms: [propext, Classical.choice, Quot.sound]
'Verif.Props.C194_counterexample' depends on axioms: [propext, Classical.choice, Quot.sound]
'Verif.Props.C195_loop' depends on axioms: [propext, Classical.choice, Quot.sound]
'Verif.Props.C195_chain' depends on axioms: [propext, Classical.choice, Quot.sound]
'Verif.Props.C195_files' depends on axioms: [propext, Classical.choice, Quot.sound]
'Verif.Props.C195_empty' depends on axioms: [propext, Classical.choice, Quot.sound]
'Verif.Props.C195_steps' depends on axioms: [propext, Classical.choice, Quot.sound]
'Verif.Props.C195_leftover' depends on axioms: [propext, Classical.choice, Quot.sound]
'Verif.Props.C195_twice' depends on axioms: [propext, Classical.choice, Quot.sound]
'Verif.Props.C195_records' depends on axioms: [propext, Classical.choice, Quot.sound]
'Verif.Props.C196_rf' depends on axioms: [propext, Classical.choice, Quot.sound]
'Verif.Props.C196_untrimmed' depends on axioms: [propext, Classical.choice, Quot.sound]
'Verif.Props.C196_moveout' depends on axioms: [propext, Classical.choice, Quot.sound]
'Verif.Props.C196_pair' depends on axioms: [propext, Classical.choice, Quot.sound]
'Verif.Props.C196_commands' depends on axioms: [propext, Classical.choice, Quot.sound]
'Verif.Props.C197_index' depends on axioms: [propext, Classical.choice, Quot.sound]
'Verif.Props.C197_onset' depends on axioms: [propext, Classical.choice, Quot.sound]
'Verif.Props.C197_shift' depends on axioms: [propext, Classical.choice, Quot.sound]
'Verif.Props.C198_stops' depends on axioms: [propext, Quot.sound]
'Verif.Props.C198_read_partial' depends on axioms: [propext, Classical.choice, Quot.sound]
'Verif.Props.C198_exact_partial' depends on axioms: [propext, Classical.choice, Quot.sound]
'Verif.Props.C198_q' depends on axioms: [propext, Classical.choice, Quot.sound]
'Verif.Props.C198_counterexample' depends on axioms: [propext, Classical.choice, Quot.sound]
'Verif.Props.C199_time' depends on axioms: [propext, Classical.choice, Quot.sound]
'Verif.Props.C199_sample' depends on axioms: [propext, Classical.choice, Quot.sound]
'Verif.Props.C199_deconvolve' depends on axioms: [propext, Classical.choice, Quot.sound]
'Verif.Props.C199_exact' depends on axioms: [propext, Classical.choice, Quot.sound]
'Verif.Props.C200_moveout' depends on axioms: [propext, Classical.choice, Quot.sound]
'Verif.Props.C200_stack' depends on axioms: [propext, Classical.choice, Quot.sound]
'Verif.Props.C200_profile' depends on axioms: [propext, Classical.choice, Quot.sound]
'Verif.Props.C200_sac' depends on axioms: [propext, Classical.choice, Quot.sound]
'Verif.Props.C201_energy' depends on axioms: [propext, Classical.choice, Quot.sound]
'Verif.Props.C201_noise' depends on axioms: [propext, Classical.choice, Quot.sound]
'Verif.Props.C201_sample' depends on axioms: [propext, Classical.choice, Quot.sound]
'Verif.Props.C202_energy' depends on axioms: [propext, Classical.choice, Quot.sound]
'Verif.Props.C202_noise' depends on axioms: [propext, Classical.choice, Quot.sound]
'Verif.Props.C202_sample' depends on axioms: [propext, Classical.choice, Quot.sound]
'Verif.Props.C203_energy' depends on axioms: [propext, Classical.choice, Quot.sound]
'Verif.Props.C203_noise' depends on axioms: [propext, Classical.choice, Quot.sound]
'Verif.Props.C203_sample' depends on axioms: [propext, Classical.choice, Quot.sound]
'Verif.Props.C204_stack' depends on axioms: [propext, Classical.choice, Quot.sound]
'Verif.Props.C204_amplitude' depends on axioms: [propext, Classical.choice, Quot.sound]
'Verif.Props.C204_profile' depends on axioms: [propext, Classical.choice, Quot.sound]
'Verif.Props.C205_one_phase_partial' depends on axioms: [propext, Classical.choice, Quot.sound]
'Verif.Props.C205_several' depends on axioms: [propext, Classical.choice, Quot.sound]
'Verif.Props.C205_rf' depends on axioms: [propext, Classical.choice, Quot.sound]
'Verif.Props.C205_counterexample' depends on axioms: [propext, Classical.choice, Quot.sound]
'Verif.Props.C206_response' depends on axioms: [propext, Classical.choice, Quot.sound]
'Verif.Props.C206_tshift' depends on axioms: [propext, Classical.choice, Quot.sound]
'Verif.Props.C206_common' depends on axioms: [propext, Classical.choice, Quot.sound]
'Verif.Props.C207_same_spikes_partial' depends on axioms: [propext, Classical.choice, Quot.sound]
'Verif.Props.C207_counterexample' depends on axioms: [propext, Classical.choice, Quot.sound]
'Verif.Props.C208_number' depends on axioms: [propext, Classical.choice, Quot.sound]
'Verif.Props.C208_line' depends on axioms: [propext]
'Verif.Props.C208_bad_field' depends on axioms: [propext, Classical.choice, Quot.sound]
'Verif.Props.C208_table' depends on axioms: [propext, Classical.choice, Quot.sound]
'Verif.Props.C208_model' depends on axioms: [propext, Classical.choice, Quot.sound]
'Verif.Props.C208_ragged' depends on axioms: [propext, Classical.choice, Quot.sound]
'Verif.Props.C208_single' depends on axioms: [propext, Classical.choice, Quot.sound]
'Verif.Props.C209_identifies_partial' depends on axioms: [propext, Classical.choice, Quot.sound]
'Verif.Props.C209_counterexample' depends on axioms: [propext, Classical.choice, Quot.sound]
'Verif.Props.C209_moveout' depends on axioms: [propext, Classical.choice, Quot.sound]
'Verif.Props.C209_rf' depends on axioms: [propext, Classical.choice, Quot.sound]
'Verif.Props.C209_defaults' depends on axioms: [propext, Classical.choice, Quot.sound]
'Verif.Props.C209_stack' depends on axioms: [propext, Classical.choice, Quot.sound]
'Verif.Props.C210_water' depends on axioms: [propext, Classical.choice, Quot.sound]
'Verif.Props.C210_levels' depends on axioms: [propext, Classical.choice, Quot.sound]
'Verif.Props.C210_time' depends on axioms: [propext, Classical.choice, Quot.sound]
'Verif.Props.C211_time_partial' depends on axioms: [propext, Classical.choice, Quot.sound]
'Verif.Props.C211_water_partial' depends on axioms: [propext, Classical.choice, Quot.sound]
'Verif.Props.C211_src_partial' depends on axioms: [propext, Classical.choice, Quot.sound]
'Verif.Props.C211_water_after' depends on axioms: [propext, Classical.choice, Quot.sound]
'Verif.Props.C211_iterative' depends on axioms: [propext, Classical.choice, Quot.sound]
'Verif.Props.C211_counterexample' depends on axioms: [propext, Classical.choice, Quot.sound]
'Verif.Props.C211_counterexample_src' depends on axioms: [propext, Classical.choice, Quot.sound]
'Verif.Props.C211_counterexample_time' depends on axioms: [propext, Classical.choice, Quot.sound]
'Verif.Props.C212_formats' depends on axioms: [propext, Classical.choice, Quot.sound]
'Verif.Props.C212_q' depends on axioms: [propext, Classical.choice, Quot.sound]
'Verif.Props.C212_sac' depends on axioms: [propext, Classical.choice, Quot.sound]
'Verif.Props.C212_stream' depends on axioms: [propext, Classical.choice, Quot.sound]
'Verif.Props.C212_stream_sac' depends on axioms: [propext, Classical.choice, Quot.sound]
'Verif.Props.C212_h5' depends on axioms: [propext, Classical.choice, Quot.sound]
'Verif.Props.C212_traces' depends on axioms: [propext, Classical.choice, Quot.sound]
'Verif.Props.C212_stops' depends on axioms: [propext, Classical.choice, Quot.sound]
'Verif.Props.C213_interp' depends on axioms: [propext, Classical.choice, Quot.sound]
'Verif.Props.C213_knots' depends on axioms: [propext, Classical.choice, Quot.sound]
'Verif.Props.C213_times' depends on axioms: [propext, Classical.choice, Quot.sound]
'Verif.Props.C213_moveout' depends on axioms: [propext, Classical.choice, Quot.sound]
'Verif.Props.C213_trace' depends on axioms: [propext, Classical.choice, Quot.sound]
'Verif.Props.C213_sampleTimes' depends on axioms: [propext, Classical.choice, Quot.sound]
'Verif.Props.C214_times_partial' depends on axioms: [propext, Classical.choice, Quot.sound]
'Verif.Props.C214_samples_partial' depends on axioms: [propext, Classical.choice, Quot.sound]
'Verif.Props.C214_inside_partial' depends on axioms: [propext, Classical.choice, Quot.sound]
'Verif.Props.C214_trace_partial' depends on axioms: [propext, Classical.choice, Quot.sound]
'Verif.Props.C214_counterexample' depends on axioms: [propext, Classical.choice, Quot.sound]
'Verif.Props.C215_delays' depends on axioms: [propext, Classical.choice, Quot.sound]
'Verif.Props.C215_sp' depends on axioms: [propext, Classical.choice, Quot.sound]
'Verif.Props.C215_tables' depends on axioms: [propext, Classical.choice, Quot.sound]
'Verif.Props.C215_reached' depends on axioms: [propext, Classical.choice, Quot.sound]
'Verif.Props.C216_max_partial' depends on axioms: [propext, Classical.choice, Quot.sound]
'Verif.Props.C216_counterexample' depends on axioms: [propext, Classical.choice, Quot.sound]
'Verif.Props.C216_samples' depends on axioms: [propext, Classical.choice, Quot.sound]
'Verif.Props.C216_again' depends on axioms: [propext, Classical.choice, Quot.sound]
'Verif.Props.C216_units' depends on axioms: [propext, Classical.choice, Quot.sound]
'Verif.Props.C217_many' depends on axioms: [propext, Classical.choice, Quot.sound]
'Verif.Props.C217_one_partial' depends on axioms: [propext, Classical.choice, Quot.sound]
'Verif.Props.C217_counterexample' depends on axioms: [propext, Classical.choice, Quot.sound]
'Verif.Props.C218_delays' depends on axioms: [propext, Classical.choice, Quot.sound]
'Verif.Props.C219_tables' depends on axioms: [propext, Classical.choice, Quot.sound]
'Verif.Props.C220_distance' depends on axioms: [propext, Classical.choice, Quot.sound]
'Verif.Props.C221_mirror' depends on axioms: [propext, Classical.choice, Quot.sound]
'Verif.Props.C221_exact' depends on axioms: [propext, Classical.choice, Quot.sound]
'Verif.Props.C221_sample' depends on axioms: [propext, Classical.choice, Quot.sound]
'Verif.Props.C221_stack' depends on axioms: [propext, Classical.choice, Quot.sound]
'Verif.Props.C221_moved' depends on axioms: [propext, Classical.choice, Quot.sound]
'Verif.Props.C222_interp' depends on axioms: [propext, Classical.choice, Quot.sound]
'Verif.Props.C222_moveout' depends on axioms: [propext, Classical.choice, Quot.sound]
'Verif.Props.C222_double' depends on axioms: [propext, Classical.choice, Quot.sound]
'Verif.Props.C222_multiple' depends on axioms: [propext, Classical.choice, Quot.sound]
'Verif.Props.C223_moveout' depends on axioms: [propext, Classical.choice, Quot.sound]
'Verif.Props.C223_tables' depends on axioms: [propext, Classical.choice, Quot.sound]
'Verif.Props.C223_multiple' depends on axioms: [propext, Classical.choice, Quot.sound]
'Verif.Props.C224_multiple' depends on axioms: [propext, Classical.choice, Quot.sound]
'Verif.Props.C224_delays' depends on axioms: [propext, Classical.choice, Quot.sound]
'Verif.Props.C224_tables' depends on axioms: [propext, Classical.choice, Quot.sound]
'Verif.Props.C224_moveout' depends on axioms: [propext, Classical.choice, Quot.sound]
'Verif.Props.C225_layers' depends on axioms: [propext, Classical.choice, Quot.sound]
'Verif.Props.C225_distance' depends on axioms: [propext, Classical.choice, Quot.sound]
'Verif.Props.C226_delays' depends on axioms: [propext, Classical.choice, Quot.sound]
'Verif.Props.C226_delay_times' depends on axioms: [propext, Classical.choice, Quot.sound]
'Verif.Props.C226_tables' depends on axioms: [propext, Classical.choice, Quot.sound]
'Verif.Props.C226_moveout' depends on axioms: [propext, Classical.choice, Quot.sound]
'Verif.Props.C226_multiple' depends on axioms: [propext, Classical.choice, Quot.sound]
