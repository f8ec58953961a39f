m("C01","proved","C01_batch_enumeration C01_batch_insertion_order")
m("C02","proved","C02_batch_error_terms C02_batch_acceptance")
m("C03","partial","C03_batch_exception_safety_partial C03_permute_not_exception_safe","False for throwing permutations (elements reordered before the throw): witness proved. Everything else proved unchanged.")
m("C04","proved","C04_batch_set_groups_ordering C04_inc_set_groups_ordering")
m("C05","proved","C05_batch_group_dims C05_inc_group_dims")
m("C06","proved","C06_batch_save_restore C06_inc_save_restore","For the incremental problem in histories without clear(); after clear() it fails, see C119_clear_reverts.")
m("C07","proved","C07_permute_applies_permutation")
m("C08","proved","C08_permute_preserves_elements")
m("C09","partial","C09_permute_rejection_partial C09_permute_outcome C09_group_rejection C09_permute_diverges C09_permute_accepts_nonpermutation chase_loops_iff","False in general: vectors exist on which permute loops forever or silently accepts a non-permutation (witnesses proved); the outcome for every vector is proved exactly (C09_permute_outcome).")
m("C10","proved","C10_inc_counts")
m("C11","proved","C11_inc_groups")
m("C12","proved","C12_inc_enumeration")
m("C13","proved","C13_inc_error_terms C13_inc_error_terms_of_batch")
m("C14","proved","C14_add_remove_identity")
m("C15","partial","C15_failed_add_partial C15_group_mismatch_corrupts C15_duplicate_error_term_corrupts","False for InvalidOperationException: witnesses proved. Acceptance condition, exception class, batches and backup unchanged: proved.")
m("C16","proved","C16_inc_remove")
m("C17","partial","C17_restore_touches_members_partial C17_restore_after_clear_touches_removed","False after clear() (backup is not cleared): witness proved; proved for all histories without clear.")
m("C48","proved","C48_inc_batches")
m("C49","proved","C49_inc_add_effect")
m("C18","proved","C18_rejected_batch_leaves_no_trace C18_rejected_readd_reorders","For an arbitrary optimizer, for every batch that is not contained yet or has error terms. Outside the quantifier the claim is false: a contained batch without error terms offered again and rejected changes its position (witness)." )
m("C19","proved","C19_acceptance_rule")
m("C20","proved","C20_marginalised_group_last")
m("C21","partial","C21_estimator_batches_partial batches_step C22_missing_marginalised_group_keeps_batch","Proved for programs without a throwing addBatch and without re-offering a contained batch; false otherwise (C22, C18 witnesses). batches_step gives the exact effect of every call.")
m("C22","partial","C22_throwing_addBatch_partial C22_missing_marginalised_group_keeps_batch","False: proved in general that a batch without the marginalised group stays in although addBatch throws.")
m("C23","partial","C23_removeBatch_partial C23_removing_last_batch_throws","False for the last batch: proved that removing it always throws after taking it out.")
m("C24","proved","C24_layout_after_rejection")
m("C25","proved","C25_information_gains_telescope C19_acceptance_rule","Exact arithmetic in any field; rounding of doubles not modelled here.")
m("C50","proved","C50_statistics C50_nothing_kept")
m("C26","partial","C26_lookup_exact_partial C26_lookup_int C26_lookup_rounded_partial C26_rounding_breaks_lookup","False for doubles: a grid and a point in its domain whose index is out of range (witness in correctly rounded binary64). Proved for exact reals and for integers; for rounded arithmetic the index is off by at most one.")
m("C27","partial","C27_roundtrip_exact_partial C27_roundtrip_int_partial C27_int_negative_minimum_breaks Grid.C27_roundtrip_int","Real coordinates: proved. Integer coordinates: completely characterised; false exactly in dimensions of resolution one for cells of negative numbers (witness).")
m("C28","partial","C28_linear_index_bijection_partial C28_large_grid_overflows","False when the number of cells exceeds the machine word (witness).")
m("C29","proved","C29_increment_visits_each_once")
m("C30","partial","C30_too_large_rejected_partial C30_negative_index_accepted","False for negative indices (witness).")
m("C31","partial","C31_histogram_counts_partial C31_out_of_range_ignored C31_normalized C31_double_sample_throws","For doubles a sample in the domain can throw (witness); proved for exact and integer arithmetic.")
m("C32","proved","C32_revert_restores C32_updates_add C32_parameters_roundtrip")
m("C42","partial","C42_categorical_partial C42_zero_draw_returns_impossible_category C42_bad_probabilities_rejected","False for the draw 0, which the generator can produce (witness).")
m("C43","proved","C43_log_factorial","Real arithmetic.")
m("C44","partial","C44_timespec_monotone C44_timespec_value_partial C44_negative_timespec","Negative time stamps give negative nanoseconds (witness).")
m("C47","partial","C47_sum_log_diag_partial C47_wide_matrix_reads_outside C47_single_column_rejected","False for matrices with fewer rows than columns (out-of-bounds read, witness); a single column is rejected.")
m("C51","proved","C51_mean_variance C51_mode C51_median")
m("C52","proved","C52_binned_mean_close")
m("C53","proved","C53_mode_is_maximal")
m("C54","partial","C54_uniform_real C54_uniform_int_range C54_empty_support_rejected C54_uniform_int_biased","Uniformity is false for integers: the ends get about half the probability (proved).")
m("C34","partial","C34_streaming_partial C34_reset C34_order_independent C34_single_point_stale_variance C34_rounding_loses_validity C34_count_overflow C34_weighted_partial C34_zero_weights_valid_nan C34_mv_streaming_partial C34_mv_single_point_valid","Proved for exact arithmetic and fewer than 2^32 points, for every history including resets and weighted points; false for doubles (witness) and beyond 2^32 points (witness); the multivariate estimator is 'valid' after one point (proved).")
m("C35","partial","C35_pdf C35_variance C35_mean_partial C35_mean_wrong C35_set_support C35_set_one_end C35_int_partial C35_mv_partial C35_mv_covariance_wrong","False: getMean/getMedian are too small by the minimum of the support, the multivariate covariance uses the whole area (both proved, with the exact conditions under which they are right). pdf and 1-D variance proved right.")
m("C55","proved","C55_outer_product")
m("C56","proved","C56_members_consistent C56_setters C56_pdf C56_cdf C56_moments C56_kl","Real arithmetic.")
m("C57","partial","C57_setters C57_pdf C57_mode C57_moments C57_chi_square C57_kl_self_partial C57_kl_negative","False for KLDivergence: negative for Gamma(1,1) against Gamma(2,1) (proved). Everything else proved.")
m("C33","partial","C33_set2_apply C33_set3_apply C33_inverse2 C33_inverse3 C33_rigid2 C33_rigid3 C33_matrix2 C33_matrix3 C33_matrix_setter_wrong_inverse C33_inverse_twice2_partial C33_inverse_twice3_partial C33_inverse_twice_wrong C33_matrix_setter_stale_inverse C33_matrix_constructor_inverse_ub","inverse() maps back (proved); inverse twice multiplies rotation and translation in the wrong order (witness; proved right without rotation or translation); the matrix setter and constructor leave the inverse stale or unset (proved).")
m("C36","partial","C36_trigger_not_in_own_window C36_every_measurement_in_one_place_partial C36_stream C36_unprocessed C36_measurement_lost_on_exception","Proved for every stream in which the estimator does not throw; a measurement is lost when the estimator throws (witness).")
m("C37","partial","C37_window_duration_partial C37_long_window C37_histories C37_histories_aligned","With non-decreasing times every submitted window is shorter than the duration or ends with its second pose, in which case it can be arbitrarily long (witness: 100 s with a duration of 10 s). Histories proved aligned.")
m("C39","partial","C39_motion C39_observation C39_steering C39_steering_jacobian_not_finite C39_velocities C39_wheel_rear C39_pose","Exact real arithmetic. False for the steering term at zero forward velocity (Jacobian not finite, witness); the front wheel term is C40. The pose term is proved for all six rows against a specification of the external Euler angle functions (shown satisfied by the textbook formulas).")
m("C40","partial","C40_front_wheel_forward_partial C40_backward_sign C40_backward_wrong","False for backward motion: the velocity block has the wrong sign (proved for every backward velocity, with witness).")
m("C46","partial","C46_constructor_partial C46_setter_keeps_weight C46_wrong_weight","False: setCovariance never changes the weighting (proved for every sequence of calls).")
m("C58","proved","C58_buffers_by_sensor C58_batch_uses_exactly_the_admissible")
m("C59","partial","C59_wheel_weights_partial C59_rear_variance_ignored","False for the rear wheels, which get the front variances (proved).")
m("C60","partial","C60_segments_exact C60_segments_partial C60_equal_times_undefined","Undefined behaviour when first and last pose have the same time (proved).")
m("C38","proved","C38_ids_consecutive C38_ids_kept C38_stored_under_own_id","Assumes the image pipeline never completes the same frame object twice.")
m("C41","proved","C41_enu C41_ned C41_enu_ned","Real arithmetic; r2quat/quat2r of the external library assumed inverse to each other on rotation matrices.")
m("C45","partial","C45_slots_partial C45_wrong_slots C45_coefficient_lost C45_determines_partial","False: the DMI delay overwrites the last steering coefficient and the last slot is never written (proved).")
m("C61","partial","C61_batch_order C61_labels_right_iff_all_active C61_labels_right C61_first_rows_partial C61_default_output_undefined C61_deviations_undefined","False: the output is defined and right exactly when all variables are active, which the constructor never sets up (proved).")
m("C62","partial","C62_matches_partial C62_match_without_frame C62_match_shape C62_stereo_complete","False for the first side: the reference frame after a reset or recovery is never stored (witness).")
m("C63","proved","C63_key_frame_decision")
m("C64","partial","C64_defined_partial C64_depends_on_memory C64_negative_memory_undefined","False: the thresholds are never initialised (witnesses).")
m("C65","proved","C65_on_ellipsoid C65_up C65_east C65_north","Real arithmetic.")
m("C66","proved","C66_grid_is_a_store","Grids of at most 2^31 cells: beyond that the int arithmetic of the index overflows.")
m("C67","partial","C67_exponential_first_nonzero C67_exponential_tail C67_geometric_first_nonzero C67_geometric_tail C67_poisson C67_normal C67_normal_mv C67_gamma_nonneg_partial C67_integer_normal_never_returns C67_integer_exponential_zero C67_integer_poisson_ignores_mean C67_gamma_infinite","Exact real arithmetic, random() as an oracle. False for randomizers of integer type (proved) and for gamma samples with fractional shape (can be infinite, witness); laws under ideal uniform draws: C111.")
m("C68","partial","C68_reproducible_partial C68_set_seed_overridden C68_set_seed_overridden_late C68_constructor_seed_ignored C68_same_seed_different_draws","False: the constructor's seed is ignored (proved for all programs) and the first getSample of a distribution re-seeds from the clock (witness).")
m("C69","partial","C69_trigger_not_in_own_window C69_every_measurement_in_one_place_partial C69_stream C69_unprocessed C69_window_duration_partial C69_histories C69_histories_aligned C69_long_window C69_measurement_lost_on_exception","Proved for every stream without exceptions; a measurement is lost when the estimator throws, and a window is arbitrarily long while it has fewer than two poses (witnesses).")
m("C70","partial","C70_batch_contents C70_segments_exact C70_splines C70_segments_partial C70_equal_times_undefined","Contents proved. Undefined behaviour when first and last pose have the same time (proved).")
m("C71","partial","C71_predictions_are_the_terms C71_predict_appends_partial C71_predict_undefined C71_predictions_not_aligned","Predictions are those of the error terms (proved); pairing by position with the measurements fails (witness), predict with no pose buffered is undefined (proved).")
m("C72","proved","C72_trigger_not_in_own_window C72_every_measurement_in_one_place C72_stream C72_unprocessed C72_window_duration C72_histories C72_histories_aligned","Proved for accepted measurements; a measurement whose call threw is nowhere (C74).")
m("C73","partial","C73_batch_contents C73_segments_exact C73_splines C73_first_measurement_unused C73_terms_span_the_measured_interval C73_gap_breaks_the_interval C73_true_calibration_has_no_error C73_gauge_freedom","Contents proved; the interval is the measured one exactly for gap-free measurement streams (proved; witness with a gap); the first used measurement of every sensor and window is never compared (proved).")
m("C74","partial","C74_stuck_forever C74_clear_then_late_measurement C74_reachable","False: once the window has run out without a usable reference, no later call succeeds (proved for every continuation, with a reachable witness).")
m("C75","partial","C75_dead_reckoning_partial C75_trajectory_of_a_window C75_predict_moves_the_trajectory","Proved without exceptions and without predict; predict() moves the starting pose of later batches (proved).")
m("C76","proved","C76_accounting C76_collect C76_submit C76_process C76_bound C76_never C76_geometry","Every history, with exceptions. After an exception or when batchNumImages is lowered below the pending count, images only accumulate (C76_never).")
m("C77","proved","C77_batch C77_poses C77_estimated")
m("C78","partial","C78_order C78_match_partial C78_mismatch","False from the second accepted submission on: observations are prepended, poses appended (proved, reachable witness).")
m("C79","partial","C79_silent C79_stuck C79_after_failure","False: after an exception of the optimizer no later submission succeeds, and no image triggers one (proved for every continuation, reachable witness).")
m("C80","partial","C80_empty_submission","False once one submission has returned (proved): an empty batch is submitted; it can be accepted (witness).")
m("C81","proved","C81_collected C81_distances C81_statistics","Real instead of double arithmetic; the positivity test of the linear algebra library is assumed right in C81_statistics.")
m("C82","partial","C82_last_image C82_average_wrong","All numbers but the average are right (proved); the average is divided by the number of all corners of the target, so it is too small whenever a corner is missing (proved with exact condition).")
m("C83","proved","C83_errors C83_errors_of_accepted_images C83_statistics","C83_errors for every history with exceptions; real instead of double arithmetic.")
m("C84","partial","C84_projection_first C84_distortion_first C84_no_batch C84_write_partial C84_after_failure","Right if the projection variable is enumerated first (pointer order); swapped otherwise (proved). write() is undefined behaviour exactly while no submission was accepted, if no call threw (proved); after a failed first submission the getters are undefined (proved).")
m("C85","partial","C85_every_image C85_no_geometry C85_saved_images C85_result_partial","Every image proved (unless an exception ends the program). Only the last image of each accepted full batch is written (proved); undefined behaviour at the end when no submission was accepted (proved).")
m("C86","proved","C86_simulated_data C86_no_termination C86_zero_variance","Real instead of double arithmetic; the samples are arbitrary.")
m("C87","partial","C87_motion C87_heading C87_straight C87_off_the_path","Orientations proved. The positions leave the sine path (proved for every amplitude but zero): each step uses the previous orientation, and the first step does not turn.")
m("C88","partial","C88_no_error_partial C88_delay_is_negated C88_knots","False for the delay: the calibrator explains the data with the negated delay and no other (proved). The splines passing through the simulated velocities is a hypothesis (external library).")
m("C89","partial","C89_prediction_partial C89_standing","True exactly without sideways slip; a standing wheel has no finite prediction (both proved).")
m("C90","proved","C90_simulated_motions C90_telescope C90_uncalibrated C90_no_termination","Rigid motions are elements of a group; the fitted splines are a function of time; real instead of double arithmetic.")
m("C91","proved","C91_end_to_end C91_one_window C91_nothing_to_calibrate","Estimator and spline fitter are parameters; the files written are not modelled.")
m("C92","partial","C92_poses C92_planar_steps C92_straight_speed C92_combined_jump C92_combined_counterexample","False for combined trajectories: the second third restarts the path at the origin but not its clock, so the vehicle jumps (proved, exact size and witness). Nothing is claimed about the size of random steps.")
m("C93","proved","C93_best C93_aligned","Real instead of double arithmetic.")
m("C94","partial","C94_inputs_partial C94_first_turn C94_step_not_positive C94_count_rounded C94_one_more C94_stalls","Proved in exact arithmetic but for the first turn, which contains the path's whole initial direction (proved to differ for every amplitude but zero). With rounded times one input more than asked for is possible, never fewer (proved under a bound on the drift); a time step that is not positive gives a single input.")
m("C95","partial","C95_initial_landmarks C95_exact_data C95_no_ranges C95_short_record_undefined","Proved for complete records in exact arithmetic. With fewer rows than poses the program reads outside the record (proved); without rows the old guesses stay.")
m("C96","partial","C96_record C96_observation_noise C96_motion_noise_partial C96_odometry C96_sine_path C96_heading_wrap C96_short_inputs_undefined C96_bad_motion_noise C96_bad_measurement_noise","Observations proved. The motion error does not wrap angles: in a step in which the heading wraps it is off by a full turn per time step (proved, with witness); the shipped path never wraps at the truth (proved).")
m("C97","partial","C97_decisions_partial C97_ragged_undefined C97_keep_iff C97_zero_determinant C97_rejection_not_undone","Decisions proved when the batch size divides the number of steps, otherwise undefined behaviour (proved). A rejected batch is not undone: the values written at the end and the starting point of the next round include it (proved, with witness).")
m("C98","partial","C98_batch C98_batch_starts C98_zero_batch_size C98_states_once C98_measurements_partial C98_first_measurements_dropped C98_offline C98_offline_needs_landmarks","False for measurements: those of the first state of every batch are in no batch (proved, exact characterisation). States once and batch building proved on the real batch model; batch size zero does not terminate.")
m("C99","partial","SplineProblem.C99_add_spline SplineProblem.C99_add_spline_fails SplineProblem.C99_history SplineProblem.C99_defined SplineProblem.C99_contained_partial SplineProblem.C99_clear_keeps_splines SplineProblem.C99_listed_but_not_contained SplineProblem.C99_owned_partial SplineProblem.C99_dangling_after_exception SplineProblem.C99_get_spline","Histories proved. False parts: clear() empties the batch but keeps listing its splines (contained: proved without clear); an addSpline that throws leaves variables in the batch that nothing keeps alive (owned: proved if none throws); the egomotion getter is unchecked in release builds. All with witnesses.")
m("C100","partial","SplineOut.C100_rows SplineOut.C100_all_batches SplineOut.C100_zero_step_never_ends SplineOut.C100_negative_step_fails SplineOut.C100_missing_rotation SplineOut.C100_other_batch_undefined","Proved for steps of at least one nanosecond; a smaller step never ends (proved); a batch with fewer rotation than translation splines throws, a batch of another type is undefined behaviour.")
m("C101","proved","SplineOut.C101_batch SplineOut.C101_no_calibration_variables","Distinct variables are a hypothesis (fresh objects); without calibration variables the ordering call throws.")
m("C102","partial","TDVars.C102_parameters TDVars.C102_parameters_determine TDVars.C102_td_report TDVars.C102_td_report_any TDVars.C102_td_columns TDVars.C102_td_wrong_label EgoVars.C102_ego_report EgoVars.C102_ego_fixed_reference EgoVars.C102_ego_parameters_partial EgoVars.C102_ego_same_index","Parameter vectors proved (egomotion: for distinct sensor indices; of two sensors with one index only the last exists). Reports: right exactly if all variables are active; otherwise rows are mislabelled or read beyond the matrix (proved), which includes the usual fixed reference sensor.")
m("C103","partial","CarCal.C103_predictions_partial CarCal.C103_terms_of_the_batch CarCal.C103_stamps_differ CarCal.C103_undefined CarCal.C103_unprocessed_but_undefined CarCal.C103_twice CarCal.C103_exception_keeps","Exact contents proved for every history. False and proved so: stamps are those of the measurements (delayed sensors are stamped with the delayed time); the call is undefined without two different pose times although measurements are unprocessed (the analyzer's only check).")
m("C104","partial","CarKin.C104_wheel_velocities CarKin.C104_sensor_velocity CarKin.C104_knots_reproduce CarKin.C104_prediction_plus_error_partial CarKin.C104_slip CarKin.C104_front_prediction CarKin.C104_gate CarKin.C104_gate_straight CarKin.C104_gate_admits_backward_wheels CarKin.C104_steering_units CarKin.C104_steering_error","Rigid body kinematics proved by derivatives. False and proved so: the predicted steering is an angle, the measurement a raw value; the gate on the vehicle speed admits wheels rolling backwards.")
m("C105","partial","CarMain.C105_calls CarMain.C105_online CarMain.C105_pose_then_velocity CarMain.C105_units CarMain.C105_positions CarMain.C105_velocity CarMain.C105_position_covariance CarMain.C105_velocity_covariance CarMain.C105_odometer_partial CarMain.C105_odometer_sentinel CarMain.C105_odometer_same_time CarMain.C105_end_partial CarMain.C105_end_drops CarMain.C105_analysis_last_window_only C105_analysis_exact","Calls, geometry and odometer proved for all message sequences. False and proved so: covariances are those of north/east/down attached to east/north/up and to the vehicle frame; odometer time -1 loses distance, equal times give a value that is not finite; leftover measurements with fewer than two poses are dropped; the analyzer predicts the last window only.")
m("C106","partial","Tsvd.C106_options Tsvd.C106_solve Tsvd.C106_build Tsvd.C106_analyze Tsvd.C106_memory_partial Tsvd.C106_leak Tsvd.C106_rhsJtJrhs_wrong","Library (transpose, factorisation) is a parameter. False and proved so: each solveSystem that throws leaks the transposed matrix (exactly one each); rhsJtJrhs returns another quantity.")
m("C107","partial","NormalV.C107_setCovariance_partial NormalV.C107_parameters NormalV.C107_members NormalV.C107_density NormalV.C107_kl NormalV.C107_samples_partial NormalV.C107_rejected_call_changes_samples NormalV.C107_singular_accepted","Real instead of double arithmetic. False and proved so: a rejected setCovariance changes the distribution sampled from; a singular positive semidefinite covariance is accepted.")
m("C108","partial","Opts.C108_car_partial Opts.C108_timedelay_partial Opts.C108_egomotion_partial Opts.C108_egomotion_trajectory_partial Opts.C108_timedelay_trajectory Opts.C108_order_unset Opts.C108_wraps","Exact for every configuration that has a translation spline order and whose small integers fit. False and proved so: without that entry the order is whatever is in memory; a cutoff beyond 16 bits and a negative reference sensor wrap silently.")
m("C109","partial","LogGamma.C109_value_partial LogGamma.C109_range_partial LogGamma.C109_one_dimension LogGamma.C109_overflow","Proved up to dimension 2^32 in real arithmetic; from 2^32+1 on an integer product wraps and the value is wrong (proved).")
m("C110","partial","CamVal.C110_report CamVal.C110_saved_images CamVal.C110_own_image_partial CamVal.C110_stale_images","Report proved. Saved files: exactly those of images with a detected target show what their name says; the others are empty or copies of an older image (proved, witness), and nothing is saved without visualisation.")
m("C111","partial","Ideal.C111_bridge Ideal.C111_bridge_one_draw Ideal.C111_uniform Ideal.C111_uniform_mv Ideal.C111_uniform_int_partial Ideal.C111_exponential Ideal.C111_geometric Ideal.C111_poisson Ideal.C111_normal Ideal.C111_normal_mv Ideal.C111_normal_mv_object Ideal.C111_categorical Ideal.C111_gamma_partial Ideal.C111_gamma_tiny_shape Ideal.C111_chi_square Ideal.C111_repeated_calls Ideal.C111_rejected","Exact for all samplers of real type, under independent uniform draws on [0,1] in real arithmetic. False and proved so: integer uniform samples give the ends half the probability; gamma drops a fractional shape of at most 2^-52 (shapes that small give only zeros).")
m("C112","partial","GammaCdf.C112_incomplete GammaD.C112_cdf GammaD.C112_invcdf GammaD.C112_median_partial GammaD.C112_median_not_median GammaD.C112_kl_partial GammaD.C112_kl_right_iff","Exact real arithmetic; boost functions are the functions they approximate. False and proved so: invcdf(1) throws; getMedian is not the median; KLDivergence is the divergence exactly when the other shape is one or the shapes are equal.")
m("C113","partial","C113_any_history C113_add_error_term C113_same_error_term_twice C113_clear_keeps_variables C113_added_variable C113_shared_variable_lost C113_remove_undefined","Proved for every history: batches stay consistent and the problem's error terms are those of its batches; a new error term in a contained batch keeps all guarantees. False and proved so: a term can be listed twice; variables of a cleared batch stay; a variable given to a contained batch leaves a wrong count, is enumerated wrongly or is lost for another batch, and a later remove can be undefined behaviour.")
m("C114","partial","C114_timedelay C114_timedelay_simulates C114_default_simulates C114_egomotion_partial C114_egomotion_complete_partial C114_same_index C114_overflow","Time delay: complete. Egomotion: the translation spline order must have an entry, the indices must not be negative and the number of sensors must be below the largest int; otherwise false, proved by witnesses (also: two sensors with the same index are silently merged).")
m("C115","partial","SimTD.C115_end_to_end_partial SimTD.C115_one_window SimTD.C115_no_step SimTD.C115_rejected SimTD.C115_single_step","Proved up to the last step: its measurements are dropped without notice if the last window holds fewer than two poses (witness: a simulation of one step submits nothing).")
m("C116","proved","Ego.C116_predictions Ego.C116_aligned Ego.C116_no_reference Ego.C116_too_many_segments","The lists are protected members. That predict moves the start of the next trajectory is C75.")
m("C117","partial","OnlineNew.C117_outcomes OnlineNew.C117_rounds OnlineNew.C117_problem OnlineNew.C117_report OnlineNew.C117_nothing_accepted OnlineNew.C117_rounds_refused OnlineNew.C117_refusal_possible OnlineNew.C117_missing_group OnlineNew.C117_total","For a positive batch size and a group to eliminate that the batches have; otherwise the first batch ends the program and stays in the problem (C117_missing_group). If nothing is accepted the program throws instead of reporting (witness). The printed total is one too small if the last batch is shorter than half a batch (C117_total). The alignment of the results by threePointSvd is not modelled.")
m("C118","partial","C118_left_alone_partial C118_estimator_dead C118_variables_stay C118_wrong_index C118_ordering_stuck","Proved for every state: batches, error terms, values, statistics and known variables are left alone. False otherwise and proved so for all later histories: one variable offered under a new group stops every later addBatch, reoptimize and removeBatch; a batch offered twice leaves its variables in for ever; the group ordering can no longer be set; the optimizer can be run on a wrong enumeration.")
m("C119","partial","C119_consistent_partial C119_clear_reverts C119_gain_against_removed","The consistency part is proved for all histories of acceptable batches. False and proved so: clear() keeps the backup, so that a later rejected batch sets variables of batches long gone back to old values; and the information gain is measured against batches that are gone.")
m("C120","partial","Grid.C120_real Grid.C120_int Grid.C120_rounded","Complete characterisation, up to memory being unlimited. The property as stated fails for grids whose numbers of cells (or their product without the first) exceed an int: proved to be undefined behaviour, in every dimension. In floating point the length and quotient are the rounded ones (C26 shows that this breaks the covering).")
m("C121","proved","CalibLib.C121_never_refused CalibLib.C121_windows CalibLib.C121_problem CalibLib.C121_objects CalibLib.C121_car CalibLib.C121_time_delay CalibLib.C121_egomotion CalibLib.C121_entries CalibLib.C121_wrong_group","Up to the largest number of batches a problem can hold. Assumes of a window that its splines have design variables and that its error terms depend on these and on calibration variables. C121_wrong_group: with another group in the configuration the first window ends in an exception.")
m("C122","partial","CalibLib.C122_together_partial CalibLib.C122_failed_run CalibLib.C122_witness","Proved for every history in which no call threw. False otherwise, proved for every state: after a run of the optimizer that failed the calibration is what that run left, the uncertainties are still those of the last accepted window.")
m("C123","proved","CarCal.C123_car CarCal.C123_car_histories TD.C123_time_delay Ego.C123_egomotion","Measurements whose call returned normally; one whose call threw is nowhere (C36, C69, C74).")
m("C124","partial","Camera.C124_together_partial Camera.C124_poses Camera.C124_failed_run Camera.C124_witness","Proved for every history in which no call threw. False otherwise, proved for every state: after a run of the optimizer that failed all values are those that run left, the statistics are those of before. (Which image a pose index belongs to: C78.)")
m("C125","proved","CalibLib.C125_car CalibLib.C125_time_delay CalibLib.C125_egomotion CalibLib.C125_car_witness","For runs that end normally, which is the hypothesis of the property; when they do is the subject of C115, C91, C105 and C121.")
m("C126","proved","C126_car TD.C126_time_delay Ego.C126_egomotion CalibLib.C126_library_answers C126_car_program SimTD.C126_time_delay_program SimEgo.C126_egomotion_program","Rounding of the number of spline segments is exact arithmetic in the model (see DESIGN.md). Without strictly increasing poses calls can be undefined: C60, C70.")
m("C127","proved","C127_estimator_calls_end","Up to the largest number of batches a problem can hold. After an offered batch was refused as incompatible the problem is damaged: C15, C118.")
m("C128","proved","Camera.C128_camera_calls_end Camera.C128_wrong_group","Up to the largest number of batches a problem can hold. What happens after an exception: C79.")
m("C129","proved","C129_determined_by_batches C129_estimator C129_order_depends_on_history","Histories as in C10 (contained batches are not changed, no refused batch). C129_order_depends_on_history: the order of groups and variables is not determined.")
m("C130","proved","C130_samples C130_split C130_uniform_box C130_uniform_refused C130_uniform_int C130_law","The raw number that the construction of a static randomizer consumes at the first draw is not part of this model (it is in C68's).")
m("C131","proved","C131_text C131_told_apart C131_not_determined","How a type is written to a stream is a parameter. C131_not_determined: in general the text does not determine what was handed over.")
m("C132","partial","C132_rounding C132_exact C132_rounds_partial C132_one_more C132_stalls C132_path C132_path_one_more","Up to 2^26 steps the number of rounds is the exact one up to one; the exact number is false (C132_one_more: steps of a tenth up to one), and with 2^54 steps the loop never ends (C132_stalls). Overflow and underflow are not modelled.")
m("C133","partial","C133_sample C133_in_support_partial C133_refused C133_zero_minimum C133_outside","False in general (C133_outside: a sample above the support); the samples stay inside if the width is a double, and otherwise exceed the maximum by at most two rounding errors. Overflow and underflow are not modelled.")
m("C134","partial","C134_text C134_ostream C134_ofstream C134_file_partial C134_lost C134_no_round_trip C134_told_apart","False on variables of type std::ofstream when an object comes first (C134_lost), and for reading (C134_no_round_trip: read members are empty). How a number or a matrix is formatted is a parameter.")
m("C135","partial","CarMain.C135_data_files CarMain.C135_crash_partial CarMain.C135_each_file CarMain.C135_phantom","Proved for normal ends; for an exception at any call the exact contents are proved, which differ from the claim (C135_phantom: a velocity that was never handed over). Numbers are values, not text.")
m("C136","partial","SimTD.C136_files C136_inherits SimTD.C136_crash_partial SimTD.C136_splines_fail SimTD.C136_refused SimTD.C136_stale","Proved but for the last clause, which is false (C136_stale). Numbers are values, not text; files can be opened.")
m("C137","partial","SimEgo.C137_files C137_inherits SimEgo.C137_crash_partial SimEgo.C137_trajectory_fails SimEgo.C137_estimate_fails SimEgo.C137_foreign","Proved but for the last clause, which is false even after a normal end (C137_foreign). Numbers are values, not text; files can be opened.")
m("C138","partial","CarMain.C138_results_partial CarMain.C138_undefined CarMain.C138_crash CarMain.C138_inherits","Proved if the estimator offers at least eighteen variances. False otherwise, and with the variables the constructor activates it is always otherwise: C138_undefined. That the covariance has one row per calibrated dimension is a hypothesis on the linear solver.")
m("C139","partial","Dbl.C139_segments_partial Dbl.C139_exact_car Dbl.C139_exact_timeDelay Dbl.C139_exact_egomotion Dbl.C139_one_more Dbl.C139_tie","False as stated: one segment too many for some durations with a whole number of segments (C139_one_more), the other branch at a rate half a pose above the knots (C139_tie). Proved: these are the only two deviations, and nothing overflows. Underflow is not modelled.")
m("C140","partial","CarMain.C140_files_partial CarMain.C140_failure CarMain.C140_inherits CarMain.C140_no_pose CarMain.C140_missing","Proved for the measurements buffered at the end; false for all recorded ones (C140_missing: the predictions of the windows already submitted are missing) and undefined if no pose is buffered at the end (C140_no_pose). A failure while writing the trajectory leaves that one file. Numbers are values, not text.")
m("C141","partial","Dbl.C141_timespec_partial Dbl.C141_timespec_monotone Dbl.C141_now_strict Dbl.C141_elapsed Dbl.C141_now_recovered Dbl.C141_moved Dbl.C141_truncated Dbl.C141_collision","False as stated: the microseconds of the timespec can be one too small (C141_truncated; rounding instead of truncating recovers them, C141_now_recovered), and beyond 2^33 s different microseconds give equal time stamps (C141_collision). Proved until 2^32 s (year 2106), with the difference exact to 1.5 microseconds. Negative times: C44.")
m("C142","partial","Traits.C142_variant_partial Traits.C142_one_variant Traits.C142_logic Traits.C142_real Traits.C142_long_double","False for long double, which gets the integer variants (C142_long_double); proved for all other arithmetic types.")
m("C143","partial","MLE1.C143_error_partial MLE1.C143_equal_points C34_rounding_loses_validity","The error bounds are proved for all histories; validity is false as stated in both directions (three equal points: valid with a mean greater than all of them; two distinct points: invalid) and proved for points that vary more than the error bound.")
m("C144","partial","Dbl.C144_category_partial Dbl.C144_impossible_last C42_zero_draw_returns_impossible_category","The interval is proved for up to 2^49 categories. A category of probability zero is never returned unless it is the last one (C144_impossible_last: ten tenths and a zero, largest raw number) or the raw number is zero (C42).")
m("C145","partial","MLE1.C145_error_partial MLE1.C145_equal_points MLE1.C145_no_weight MLE1.C145_rejected","The error bounds are proved; the estimator is valid if the points of positive weight are not all equal, but it can also be valid if they are all equal (C145_equal_points), and it is valid without finite mean and variance if all weights are zero (C145_no_weight). Overflow and underflow are not modelled.")
m("C146","partial","MLEd.C146_weighted_partial MLEd.C146_streaming MLEd.C146_repetition MLEd.C146_defined MLEd.C146_degenerate","Exact arithmetic. False without any point (undefined behaviour) and for responsibilities that add up to zero (mean not finite): C146_degenerate. If the covariance is rejected the mean has been replaced all the same. That isPositive() of the LDLT decomposition decides positive semi-definiteness is a hypothesis.")
m("C147","partial","GammaD.C147_chi_square_partial GammaD.C147_inverse_scale","False if setInvScale, inherited and public, is called: C147_inverse_scale. Proved for all histories of the other setters.")
m("C148","partial","Dbl.C148_arrivals_partial Dbl.C148_mean_ignored","Proved for means up to 708. False for means of 746 or more: exp(-mean) is zero as a double, the sample does not depend on the mean and is less than the number of draws until 1075 of them are at most one half (C148_mean_ignored). Means between 708 and 746 (exp(-mean) subnormal) are covered only by the latter bound. That exp returns the nearest double is a hypothesis.")
m("C149","partial","Dbl.C149_geometric_partial Dbl.C149_exponential Dbl.C149_small_probability","Proved for probabilities greater than 2^-54 (the survival function is that of the rounded probability of failure) and all rates. False for probabilities up to 2^-54: 1 - probability is one, the sample is minus infinity or NaN, converted to size_t (C149_small_probability). Overflow for tiny rates is not modelled.")
m("C150","partial","C150_exists_partial C150_restore_partial C150_batches C150_dangling C150_estimator_partial C150_estimator_refused","Proved for the batches after any history, for the incremental problem after regular histories (no failed add, contained batches keep their variables) and for restoreDesignVariables in those without clear. False otherwise: three programs whose last call uses a destroyed variable (C150_dangling). For the estimator: whenever it returns and whenever it runs the optimizer in a regular history its problem points only to variables its own batches hold (C150_estimator_partial); a refused batch with a duplicate error term leaves a pointer that nothing in the problem keeps alive (C150_estimator_refused).")
m("C151","proved","C151_acceptance C151_telescope C151_rounded","Each operation rounded to the nearest double; no overflow, underflow or NaN. C151_rounded: the tolerances are needed.")
m("C152","partial","Dbl.C152_rejected Dbl.C152_gamma_partial Dbl.C152_infinite","Proved for shapes below 2^49 and all draws for which a round of the rejection loop is accepted with a finite number. False otherwise: the largest raw number followed by a zero gives an infinite sample, shapes from 2^64 on are undefined behaviour (C152_infinite).")
m("C153","partial","C153_error_partial C153_powers_of_two C153_gain C153_order_matters","Errors, exactness and gains proved. The independence of the order of the columns is false: two orders of the same three entries have different sums with every accurate logarithm (C153_order_matters).")
m("C154","partial","Singleton.C154_one_partial Singleton.C154_threads_partial Singleton.C154_threads_any Singleton.C154_race","Proved for one thread after any history, and for any schedule of any number of threads if the object exists before they start. False for threads that race for the first call: two objects, or a refused call (C154_race); in every schedule calls still end, return objects that exist and fail only because one exists (C154_threads_any). The class's header is missing in the repository.")
m("C155","partial","C155_decision_partial C155_egomotion_partial C155_time_delay_partial C155_car_partial C155_closes_partial C155_car_closes_partial C155_long_window","Proved for window durations up to 2^50 nanoseconds (13 days). False in general: a window of 97 days and two nanoseconds is closed a nanosecond early (C155_long_window).")
m("C156","partial","MLEdF.C156_error_partial MLEdF.C156_components MLEdF.C156_equal_points","Error bounds, exact symmetry, validity and agreement with the univariate estimator proved. Validity just if the sample covariance is positive definite is false in doubles: three equal points leave a valid estimator with a positive variance (C156_equal_points).")
m("C157","proved","Dbl.C157_round Dbl.C157_normal","")
m("C158","partial","Vision.C158_key_frame_partial Vision.C158_boundary","Proved if the median differs from the threshold by one part in 2^50. Next to the threshold it is false: a track that moved further than the threshold is computed as having moved just as far (C158_boundary).")
m("C159","proved","Dbl.C159_error Dbl.C159_increasing Dbl.C159_gamma","")
m("C160","proved","Dbl.C160_sample","The factor is an arbitrary matrix: Eigen's LLT is not modelled.")
m("C161","proved","Dbl.C161_density Dbl.C161_unimodal","")
m("C162","proved","Dbl.C162_error Dbl.C162_order","")
m("C163","partial","Dbl.C163_error_partial Dbl.C163_negative","Error bound proved for all histories. Non-negativity is false in doubles: the divergence of the normal distribution with variance 49 from itself is negative, with every accurate logarithm (C163_negative).")
