# Axioms of the theorems in MANIFEST.json

Generated with `#print axioms` by `tools/gen_axioms.py`.

## Classical.choice, Quot.sound, propext

`C01_batch_enumeration` `C01_batch_insertion_order` `C02_batch_error_terms` `C02_batch_acceptance` `C03_batch_exception_safety_partial` `C04_batch_set_groups_ordering` `C04_inc_set_groups_ordering` `C05_batch_group_dims` `C05_inc_group_dims` `C06_batch_save_restore` `C06_inc_save_restore` `C07_permute_applies_permutation` `C08_permute_preserves_elements` `C09_permute_rejection_partial` `C09_permute_outcome` `C09_permute_accepts_nonpermutation` `chase_loops_iff` `C10_inc_counts` `C11_inc_groups` `C12_inc_enumeration` `C13_inc_error_terms` `C13_inc_error_terms_of_batch` `C14_add_remove_identity` `C15_failed_add_partial` `C15_group_mismatch_corrupts` `C15_duplicate_error_term_corrupts` `C16_inc_remove` `C17_restore_touches_members_partial` `C48_inc_batches` `C49_inc_add_effect` `C18_rejected_batch_leaves_no_trace` `C19_acceptance_rule` `C20_marginalised_group_last` `C21_estimator_batches_partial` `batches_step` `C22_missing_marginalised_group_keeps_batch` `C22_throwing_addBatch_partial` `C23_removeBatch_partial` `C23_removing_last_batch_throws` `C24_layout_after_rejection` `C25_information_gains_telescope` `C50_statistics` `C50_nothing_kept` `Grid.C26_lookup_exact_partial` `Grid.C26_lookup_int` `Grid.C26_lookup_rounded_partial` `Grid.C26_rounding_breaks_lookup` `Grid.C27_roundtrip_exact_partial` `Grid.C27_roundtrip_int_partial` `Grid.C27_int_negative_minimum_breaks` `Grid.C27_roundtrip_int` `Grid.C28_linear_index_bijection_partial` `Grid.C28_large_grid_overflows` `Grid.C29_increment_visits_each_once` `Grid.C30_too_large_rejected_partial` `Grid.C30_negative_index_accepted` `Histogram.C31_histogram_counts_partial` `Histogram.C31_out_of_range_ignored` `Histogram.C31_normalized` `Histogram.C31_double_sample_throws` `C42_categorical_partial` `C42_zero_draw_returns_impossible_category` `C42_bad_probabilities_rejected` `C43_log_factorial` `C44_timespec_monotone` `C44_timespec_value_partial` `C44_negative_timespec` `C47_sum_log_diag_partial` `C47_wide_matrix_reads_outside` `C47_single_column_rejected` `Histogram.C51_mean_variance` `Histogram.C51_mode` `Histogram.C51_median` `Histogram.C52_binned_mean_close` `Histogram.C53_mode_is_maximal` `C54_uniform_real` `C54_uniform_int_range` `C54_empty_support_rejected` `C54_uniform_int_biased` `MLE1.C34_streaming_partial` `MLE1.C34_order_independent` `MLE1.C34_single_point_stale_variance` `MLE1.C34_rounding_loses_validity` `MLE1.C34_count_overflow` `MLE1.C34_weighted_partial` `MLEd.C34_mv_streaming_partial` `MLEd.C34_mv_single_point_valid` `Uniform1.C35_pdf` `Uniform1.C35_variance` `Uniform1.C35_mean_partial` `Uniform1.C35_mean_wrong` `Uniform1.C35_set_support` `Uniform1.C35_set_one_end` `Uniform1.C35_int_partial` `Uniformd.C35_mv_partial` `Uniformd.C35_mv_covariance_wrong` `C55_outer_product` `Normal1.C56_members_consistent` `Normal1.C56_setters` `Normal1.C56_pdf` `Normal1.C56_cdf` `Normal1.C56_moments` `Normal1.C56_kl` `GammaD.C57_setters` `GammaD.C57_pdf` `GammaD.C57_mode` `GammaD.C57_moments` `GammaD.C57_chi_square` `GammaD.C57_kl_self_partial` `GammaD.C57_kl_negative` `Transf.C33_set2_apply` `Transf.C33_set3_apply` `Transf.C33_inverse2` `Transf.C33_inverse3` `Transf.C33_rigid2` `Transf.C33_rigid3` `Transf.C33_matrix2` `Transf.C33_matrix3` `Transf.C33_matrix_setter_wrong_inverse` `Transf.C33_inverse_twice2_partial` `Transf.C33_inverse_twice3_partial` `Transf.C33_inverse_twice_wrong` `Transf.C33_matrix_setter_stale_inverse` `Transf.C33_matrix_constructor_inverse_ub` `CarCal.C36_trigger_not_in_own_window` `CarCal.C36_every_measurement_in_one_place_partial` `CarCal.C36_stream` `CarCal.C36_measurement_lost_on_exception` `CarCal.C37_window_duration_partial` `CarCal.C37_long_window` `CarCal.C37_histories` `CarCal.C37_histories_aligned` `ErrorTerms.C39_motion` `ErrorTerms.C39_observation` `ErrorTerms.C39_steering` `ErrorTerms.C39_steering_jacobian_not_finite` `ErrorTerms.C39_velocities` `ErrorTerms.C39_wheel_rear` `ErrorTerms.C39_pose` `ErrorTerms.C40_front_wheel_forward_partial` `ErrorTerms.C40_backward_sign` `ErrorTerms.C40_backward_wrong` `ErrorTerms.Weighted.C46_constructor_partial` `ErrorTerms.Weighted.C46_setter_keeps_weight` `ErrorTerms.Weighted.C46_wrong_weight` `CarCal.C58_buffers_by_sensor` `CarCal.C58_batch_uses_exactly_the_admissible` `CarCal.C59_wheel_weights_partial` `CarCal.C59_rear_variance_ignored` `CarCal.C60_segments_exact` `CarCal.C60_segments_partial` `CarCal.C60_equal_times_undefined` `Geodetic.C41_enu` `Geodetic.C41_ned` `Geodetic.C41_enu_ned` `Odometry.C45_slots_partial` `Odometry.C61_first_rows_partial` `Vision.C63_key_frame_decision` `Vision.C64_defined_partial` `Geodetic.C65_on_ellipsoid` `Geodetic.C65_up` `Geodetic.C65_east` `Geodetic.C65_north` `Grid.C66_grid_is_a_store` `Sampling.C67_exponential_first_nonzero` `Sampling.C67_exponential_tail` `Sampling.C67_geometric_first_nonzero` `Sampling.C67_geometric_tail` `Sampling.C67_poisson` `Sampling.C67_normal` `Sampling.C67_normal_mv` `Sampling.C67_gamma_nonneg_partial` `Sampling.C67_integer_normal_never_returns` `Sampling.C67_integer_exponential_zero` `Sampling.C67_integer_poisson_ignores_mean` `Sampling.C67_gamma_infinite` `TD.C69_trigger_not_in_own_window` `TD.C69_every_measurement_in_one_place_partial` `TD.C69_stream` `TD.C69_window_duration_partial` `TD.C69_histories` `TD.C69_histories_aligned` `TD.C69_long_window` `TD.C69_measurement_lost_on_exception` `TD.C70_batch_contents` `TD.C70_segments_exact` `TD.C70_splines` `TD.C70_segments_partial` `TD.C70_equal_times_undefined` `TD.C71_predictions_are_the_terms` `TD.C71_predict_appends_partial` `TD.C71_predict_undefined` `TD.C71_predictions_not_aligned` `Ego.C72_trigger_not_in_own_window` `Ego.C72_every_measurement_in_one_place` `Ego.C72_stream` `Ego.C72_unprocessed` `Ego.C72_window_duration` `Ego.C72_histories` `Ego.C72_histories_aligned` `Ego.C73_batch_contents` `Ego.C73_segments_exact` `Ego.C73_splines` `Ego.C73_first_measurement_unused` `Ego.C73_terms_span_the_measured_interval` `Ego.C73_true_calibration_has_no_error` `Ego.C74_stuck_forever` `Ego.C74_clear_then_late_measurement` `Ego.C74_reachable` `Ego.C75_dead_reckoning_partial` `Ego.C75_trajectory_of_a_window` `Ego.C75_predict_moves_the_trajectory` `Camera.C76_accounting` `Camera.C76_collect` `Camera.C76_submit` `Camera.C76_process` `Camera.C76_bound` `Camera.C76_never` `Camera.C77_batch` `Camera.C77_poses` `Camera.C78_order` `Camera.C78_match_partial` `Camera.C78_mismatch` `Camera.C79_silent` `Camera.C79_stuck` `Camera.C79_after_failure` `Camera.C80_empty_submission` `CamReport.C81_collected` `CamReport.C81_distances` `CamReport.C81_statistics` `CamReport.C82_last_image` `CamReport.C82_average_wrong` `CamReport.C83_errors` `CamReport.C83_errors_of_accepted_images` `CamReport.C83_statistics` `CamReport.C84_projection_first` `CamReport.C84_distortion_first` `CamReport.C84_no_batch` `CamReport.C84_write_partial` `CamReport.C84_after_failure` `CamMain.C85_every_image` `CamMain.C85_saved_images` `CamMain.C85_result_partial` `SimTD.C86_simulated_data` `SimTD.C86_no_termination` `SimTD.C86_zero_variance` `SimTD.C87_motion` `SimTD.C87_heading` `SimTD.C87_straight` `SimTD.C87_off_the_path` `SimTD.C88_no_error_partial` `SimTD.C88_delay_is_negated` `SimTD.C88_knots` `SimTD.C89_prediction_partial` `SimTD.C89_standing` `SimEgo.C90_simulated_motions` `SimEgo.C90_telescope` `SimEgo.C90_uncalibrated` `SimEgo.C90_no_termination` `SimEgo.C91_end_to_end` `SimEgo.C91_one_window` `SimEgo.C91_nothing_to_calibrate` `SimEgo.C92_poses` `SimEgo.C92_planar_steps` `SimEgo.C92_straight_speed` `SimEgo.C92_combined_jump` `SimEgo.C92_combined_counterexample` `SimEgo.C93_best` `SimEgo.C93_aligned` `Lrf.C94_inputs_partial` `Lrf.C94_first_turn` `Lrf.C94_step_not_positive` `Lrf.C94_count_rounded` `Lrf.C94_one_more` `Lrf.C94_stalls` `Lrf.C95_initial_landmarks` `Lrf.C95_exact_data` `Lrf.C95_no_ranges` `Lrf.C95_short_record_undefined` `Lrf.C96_record` `Lrf.C96_observation_noise` `Lrf.C96_motion_noise_partial` `Lrf.C96_odometry` `Lrf.C96_sine_path` `Lrf.C96_heading_wrap` `Lrf.C96_short_inputs_undefined` `Lrf.C96_bad_motion_noise` `Lrf.C96_bad_measurement_noise` `Lrf.C97_decisions_partial` `Lrf.C97_ragged_undefined` `Lrf.C97_keep_iff` `Lrf.C97_zero_determinant` `Lrf.C97_rejection_not_undone` `Lrf.C98_batch` `Lrf.C98_batch_starts` `Lrf.C98_zero_batch_size` `Lrf.C98_states_once` `Lrf.C98_measurements_partial` `Lrf.C98_first_measurements_dropped` `Lrf.C98_offline` `Lrf.C98_offline_needs_landmarks` `SplineProblem.C99_add_spline_fails` `SplineProblem.C99_defined` `SplineProblem.C99_contained_partial` `SplineProblem.C99_owned_partial` `SplineOut.C100_rows` `SplineOut.C100_all_batches` `SplineOut.C100_zero_step_never_ends` `SplineOut.C100_negative_step_fails` `SplineOut.C100_missing_rotation` `SplineOut.C100_other_batch_undefined` `SplineOut.C101_batch` `SplineOut.C101_no_calibration_variables` `EgoVars.C102_ego_parameters_partial` `EgoVars.C102_ego_same_index` `CarCal.C103_predictions_partial` `CarCal.C103_terms_of_the_batch` `CarCal.C103_undefined` `CarCal.C103_unprocessed_but_undefined` `CarCal.C103_twice` `CarCal.C103_exception_keeps` `CarKin.C104_wheel_velocities` `CarKin.C104_sensor_velocity` `CarKin.C104_knots_reproduce` `CarKin.C104_prediction_plus_error_partial` `CarKin.C104_slip` `CarKin.C104_front_prediction` `CarKin.C104_gate` `CarKin.C104_gate_straight` `CarKin.C104_gate_admits_backward_wheels` `CarKin.C104_steering_units` `CarKin.C104_steering_error` `CarMain.C105_calls` `CarMain.C105_online` `CarMain.C105_pose_then_velocity` `CarMain.C105_units` `CarMain.C105_positions` `CarMain.C105_velocity` `CarMain.C105_position_covariance` `CarMain.C105_velocity_covariance` `CarMain.C105_odometer_partial` `CarMain.C105_odometer_sentinel` `CarMain.C105_odometer_same_time` `CarMain.C105_end_partial` `CarMain.C105_end_drops` `CarMain.C105_analysis_last_window_only` `CarMain.C105_analysis_exact` `Tsvd.C106_options` `Tsvd.C106_solve` `Tsvd.C106_analyze` `Tsvd.C106_memory_partial` `Tsvd.C106_leak` `Tsvd.C106_rhsJtJrhs_wrong` `NormalV.C107_setCovariance_partial` `NormalV.C107_parameters` `NormalV.C107_members` `NormalV.C107_density` `NormalV.C107_kl` `NormalV.C107_samples_partial` `NormalV.C107_rejected_call_changes_samples` `NormalV.C107_singular_accepted` `Opts.C108_car_partial` `Opts.C108_timedelay_partial` `Opts.C108_egomotion_partial` `Opts.C108_egomotion_trajectory_partial` `Opts.C108_timedelay_trajectory` `Opts.C108_order_unset` `Opts.C108_wraps` `LogGamma.C109_value_partial` `LogGamma.C109_range_partial` `LogGamma.C109_one_dimension` `LogGamma.C109_overflow` `CamVal.C110_report` `CamVal.C110_saved_images` `CamVal.C110_own_image_partial` `CamVal.C110_stale_images` `Ideal.C111_bridge` `Ideal.C111_bridge_one_draw` `Ideal.C111_uniform` `Ideal.C111_uniform_mv` `Ideal.C111_uniform_int_partial` `Ideal.C111_exponential` `Ideal.C111_geometric` `Ideal.C111_poisson` `Ideal.C111_normal` `Ideal.C111_normal_mv` `Ideal.C111_normal_mv_object` `Ideal.C111_categorical` `Ideal.C111_gamma_partial` `Ideal.C111_gamma_tiny_shape` `Ideal.C111_chi_square` `Ideal.C111_repeated_calls` `Ideal.C111_rejected` `GammaCdf.C112_incomplete` `GammaD.C112_cdf` `GammaD.C112_invcdf` `GammaD.C112_median_partial` `GammaD.C112_median_not_median` `GammaD.C112_kl_partial` `GammaD.C112_kl_right_iff` `C113_any_history` `C113_add_error_term` `C113_clear_keeps_variables` `C113_added_variable` `C113_shared_variable_lost` `Opts.C114_timedelay` `Opts.C114_timedelay_simulates` `Opts.C114_default_simulates` `Opts.C114_egomotion_partial` `Opts.C114_egomotion_complete_partial` `Opts.C114_same_index` `Opts.C114_overflow` `SimTD.C115_end_to_end_partial` `SimTD.C115_one_window` `SimTD.C115_no_step` `SimTD.C115_rejected` `SimTD.C115_single_step` `Ego.C116_predictions` `Ego.C116_aligned` `Ego.C116_no_reference` `Ego.C116_too_many_segments` `OnlineNew.C117_outcomes` `OnlineNew.C117_rounds` `OnlineNew.C117_problem` `OnlineNew.C117_report` `OnlineNew.C117_nothing_accepted` `OnlineNew.C117_rounds_refused` `OnlineNew.C117_refusal_possible` `OnlineNew.C117_missing_group` `OnlineNew.C117_total` `C118_estimator_dead` `C118_variables_stay` `C118_ordering_stuck` `C119_consistent_partial` `C119_clear_reverts` `C119_gain_against_removed` `Grid.C120_real` `Grid.C120_int` `Grid.C120_rounded` `CalibLib.C121_never_refused` `CalibLib.C121_windows` `CalibLib.C121_problem` `CalibLib.C121_objects` `CalibLib.C121_car` `CalibLib.C121_time_delay` `CalibLib.C121_egomotion` `CalibLib.C121_entries` `CalibLib.C121_wrong_group` `CalibLib.C122_together_partial` `CalibLib.C122_failed_run` `CalibLib.C122_witness` `CarCal.C123_car` `CarCal.C123_car_histories` `TD.C123_time_delay` `Ego.C123_egomotion` `Camera.C124_together_partial` `Camera.C124_poses` `Camera.C124_failed_run` `CalibLib.C125_car` `CalibLib.C125_time_delay` `CalibLib.C125_egomotion` `CalibLib.C125_car_witness` `C126_car` `TD.C126_time_delay` `Ego.C126_egomotion` `CalibLib.C126_library_answers` `C126_car_program` `SimTD.C126_time_delay_program` `SimEgo.C126_egomotion_program` `C127_estimator_calls_end` `Camera.C128_camera_calls_end` `Camera.C128_wrong_group` `C129_determined_by_batches` `C129_estimator` `C130_samples` `C130_split` `C130_uniform_box` `C130_uniform_refused` `C130_uniform_int` `C130_law` `C131_text` `C131_told_apart` `C131_not_determined` `C132_rounding` `C132_exact` `C132_rounds_partial` `C132_one_more` `C132_stalls` `C132_path` `C132_path_one_more` `C133_sample` `C133_in_support_partial` `C133_refused` `C133_zero_minimum` `C133_outside` `C134_text` `C134_ostream` `C134_ofstream` `C134_file_partial` `C134_lost` `C134_no_round_trip` `C134_told_apart` `CarMain.C135_data_files` `CarMain.C135_crash_partial` `CarMain.C135_each_file` `CarMain.C135_phantom` `SimTD.C136_files` `C136_inherits` `SimTD.C136_crash_partial` `SimTD.C136_splines_fail` `SimTD.C136_refused` `SimTD.C136_stale` `SimEgo.C137_files` `C137_inherits` `SimEgo.C137_crash_partial` `SimEgo.C137_trajectory_fails` `SimEgo.C137_estimate_fails` `SimEgo.C137_foreign` `CarMain.C138_results_partial` `CarMain.C138_undefined` `CarMain.C138_crash` `CarMain.C138_inherits` `Dbl.C139_segments_partial` `Dbl.C139_exact_car` `Dbl.C139_exact_timeDelay` `Dbl.C139_exact_egomotion` `Dbl.C139_one_more` `Dbl.C139_tie` `CarMain.C140_files_partial` `CarMain.C140_failure` `CarMain.C140_inherits` `CarMain.C140_no_pose` `CarMain.C140_missing` `Dbl.C141_timespec_partial` `Dbl.C141_timespec_monotone` `Dbl.C141_now_strict` `Dbl.C141_elapsed` `Dbl.C141_now_recovered` `Dbl.C141_moved` `Dbl.C141_truncated` `Dbl.C141_collision` `Traits.C142_real` `Traits.C142_long_double` `MLE1.C143_error_partial` `MLE1.C143_equal_points` `Dbl.C144_category_partial` `Dbl.C144_impossible_last` `MLE1.C145_error_partial` `MLE1.C145_equal_points` `MLE1.C145_no_weight` `MLE1.C145_rejected` `MLEd.C146_weighted_partial` `MLEd.C146_streaming` `MLEd.C146_repetition` `MLEd.C146_defined` `MLEd.C146_degenerate` `GammaD.C147_chi_square_partial` `GammaD.C147_inverse_scale` `Dbl.C148_arrivals_partial` `Dbl.C148_mean_ignored` `Dbl.C149_geometric_partial` `Dbl.C149_exponential` `Dbl.C149_small_probability` `C150_exists_partial` `C150_restore_partial` `C150_batches` `C150_estimator_partial` `C150_estimator_refused` `C151_acceptance` `C151_telescope` `C151_rounded` `Dbl.C152_rejected` `Dbl.C152_gamma_partial` `Dbl.C152_infinite` `C153_error_partial` `C153_powers_of_two` `C153_gain` `C153_order_matters` `Singleton.C154_one_partial` `Singleton.C154_threads_partial` `Singleton.C154_threads_any` `C155_decision_partial` `C155_egomotion_partial` `C155_time_delay_partial` `C155_car_partial` `C155_closes_partial` `C155_car_closes_partial` `C155_long_window` `MLEdF.C156_error_partial` `MLEdF.C156_components` `MLEdF.C156_equal_points` `Dbl.C157_round` `Dbl.C157_normal` `Vision.C158_key_frame_partial` `Vision.C158_boundary` `Dbl.C159_error` `Dbl.C159_increasing` `Dbl.C159_gamma` `Dbl.C160_sample` `Dbl.C161_density` `Dbl.C161_unimodal` `Dbl.C162_error` `Dbl.C162_order` `Dbl.C163_error_partial` `Dbl.C163_negative`

## Quot.sound, propext

`C03_permute_not_exception_safe` `C09_group_rejection` `C09_permute_diverges` `C17_restore_after_clear_touches_removed` `C18_rejected_readd_reorders` `VecDV.C32_updates_add` `MLE1.C34_reset` `MLE1.C34_zero_weights_valid_nan` `Vision.C38_ids_consecutive` `Vision.C38_ids_kept` `Vision.C38_stored_under_own_id` `Odometry.C45_determines_partial` `Odometry.C61_batch_order` `Odometry.C61_labels_right_iff_all_active` `Odometry.C61_labels_right` `Vision.C62_matches_partial` `Vision.C62_match_without_frame` `Vision.C62_match_shape` `Vision.C62_stereo_complete` `Vision.C64_depends_on_memory` `Vision.C64_negative_memory_undefined` `Sampling.C68_reproducible_partial` `Ego.C73_gap_breaks_the_interval` `Camera.C76_geometry` `Camera.C77_estimated` `CamMain.C85_no_geometry` `SplineProblem.C99_add_spline` `SplineProblem.C99_history` `SplineProblem.C99_clear_keeps_splines` `SplineProblem.C99_listed_but_not_contained` `SplineProblem.C99_dangling_after_exception` `TDVars.C102_parameters_determine` `TDVars.C102_td_report` `TDVars.C102_td_report_any` `EgoVars.C102_ego_report` `EgoVars.C102_ego_fixed_reference` `CarCal.C103_stamps_differ` `C113_same_error_term_twice` `C113_remove_undefined` `C118_left_alone_partial` `C118_wrong_index` `Camera.C124_witness` `C129_order_depends_on_history` `C150_dangling`

## none

`Sampling.C68_set_seed_overridden` `Sampling.C68_set_seed_overridden_late` `Sampling.C68_constructor_seed_ignored` `Sampling.C68_same_seed_different_draws` `Tsvd.C106_build` `Singleton.C154_race`

## propext

`VecDV.C32_revert_restores` `VecDV.C32_parameters_roundtrip` `CarCal.C36_unprocessed` `Odometry.C45_wrong_slots` `Odometry.C45_coefficient_lost` `Odometry.C61_default_output_undefined` `Odometry.C61_deviations_undefined` `TD.C69_unprocessed` `Ego.C73_gauge_freedom` `SplineProblem.C99_get_spline` `TDVars.C102_parameters` `TDVars.C102_td_columns` `TDVars.C102_td_wrong_label` `Traits.C142_variant_partial` `Traits.C142_one_variant` `Traits.C142_logic`
