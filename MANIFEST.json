{
 "claims": [
  {
   "property": "C01",
   "status": "proved",
   "theorems": [
    "Verif.C01_batch_enumeration",
    "Verif.C01_batch_insertion_order"
   ],
   "note": ""
  },
  {
   "property": "C02",
   "status": "proved",
   "theorems": [
    "Verif.C02_batch_error_terms",
    "Verif.C02_batch_acceptance"
   ],
   "note": ""
  },
  {
   "property": "C03",
   "status": "partial",
   "theorems": [
    "Verif.C03_batch_exception_safety_partial",
    "Verif.C03_permute_not_exception_safe"
   ],
   "note": "False for throwing permutations (elements reordered before the throw): witness proved. Everything else proved unchanged."
  },
  {
   "property": "C04",
   "status": "proved",
   "theorems": [
    "Verif.C04_batch_set_groups_ordering",
    "Verif.C04_inc_set_groups_ordering"
   ],
   "note": ""
  },
  {
   "property": "C05",
   "status": "proved",
   "theorems": [
    "Verif.C05_batch_group_dims",
    "Verif.C05_inc_group_dims"
   ],
   "note": ""
  },
  {
   "property": "C06",
   "status": "proved",
   "theorems": [
    "Verif.C06_batch_save_restore",
    "Verif.C06_inc_save_restore"
   ],
   "note": "For the incremental problem in histories without clear(); after clear() it fails, see C119_clear_reverts."
  },
  {
   "property": "C07",
   "status": "proved",
   "theorems": [
    "Verif.C07_permute_applies_permutation"
   ],
   "note": ""
  },
  {
   "property": "C08",
   "status": "proved",
   "theorems": [
    "Verif.C08_permute_preserves_elements"
   ],
   "note": ""
  },
  {
   "property": "C09",
   "status": "partial",
   "theorems": [
    "Verif.C09_permute_rejection_partial",
    "Verif.C09_permute_outcome",
    "Verif.C09_group_rejection",
    "Verif.C09_permute_diverges",
    "Verif.C09_permute_accepts_nonpermutation",
    "Verif.chase_loops_iff"
   ],
   "note": "False in general: vectors exist on which permute loops forever or silently accepts a non-permutation (witnesses proved); the outcome for every vector is proved exactly (C09_permute_outcome)."
  },
  {
   "property": "C10",
   "status": "proved",
   "theorems": [
    "Verif.C10_inc_counts"
   ],
   "note": ""
  },
  {
   "property": "C11",
   "status": "proved",
   "theorems": [
    "Verif.C11_inc_groups"
   ],
   "note": ""
  },
  {
   "property": "C12",
   "status": "proved",
   "theorems": [
    "Verif.C12_inc_enumeration"
   ],
   "note": ""
  },
  {
   "property": "C13",
   "status": "proved",
   "theorems": [
    "Verif.C13_inc_error_terms",
    "Verif.C13_inc_error_terms_of_batch"
   ],
   "note": ""
  },
  {
   "property": "C14",
   "status": "proved",
   "theorems": [
    "Verif.C14_add_remove_identity"
   ],
   "note": ""
  },
  {
   "property": "C15",
   "status": "partial",
   "theorems": [
    "Verif.C15_failed_add_partial",
    "Verif.C15_group_mismatch_corrupts",
    "Verif.C15_duplicate_error_term_corrupts"
   ],
   "note": "False for InvalidOperationException: witnesses proved. Acceptance condition, exception class, batches and backup unchanged: proved."
  },
  {
   "property": "C16",
   "status": "proved",
   "theorems": [
    "Verif.C16_inc_remove"
   ],
   "note": ""
  },
  {
   "property": "C17",
   "status": "partial",
   "theorems": [
    "Verif.C17_restore_touches_members_partial",
    "Verif.C17_restore_after_clear_touches_removed"
   ],
   "note": "False after clear() (backup is not cleared): witness proved; proved for all histories without clear."
  },
  {
   "property": "C48",
   "status": "proved",
   "theorems": [
    "Verif.C48_inc_batches"
   ],
   "note": ""
  },
  {
   "property": "C49",
   "status": "proved",
   "theorems": [
    "Verif.C49_inc_add_effect"
   ],
   "note": ""
  },
  {
   "property": "C18",
   "status": "proved",
   "theorems": [
    "Verif.C18_rejected_batch_leaves_no_trace",
    "Verif.C18_rejected_readd_reorders"
   ],
   "note": "For an arbitrary optimizer, for every batch that is not contained yet or has error terms. Outside the quantifier the claim is false: a contained batch without error terms offered again and rejected changes its position (witness)."
  },
  {
   "property": "C19",
   "status": "proved",
   "theorems": [
    "Verif.C19_acceptance_rule"
   ],
   "note": ""
  },
  {
   "property": "C20",
   "status": "proved",
   "theorems": [
    "Verif.C20_marginalised_group_last"
   ],
   "note": ""
  },
  {
   "property": "C21",
   "status": "partial",
   "theorems": [
    "Verif.C21_estimator_batches_partial",
    "Verif.batches_step",
    "Verif.C22_missing_marginalised_group_keeps_batch"
   ],
   "note": "Proved for programs without a throwing addBatch and without re-offering a contained batch; false otherwise (C22, C18 witnesses). batches_step gives the exact effect of every call."
  },
  {
   "property": "C22",
   "status": "partial",
   "theorems": [
    "Verif.C22_throwing_addBatch_partial",
    "Verif.C22_missing_marginalised_group_keeps_batch"
   ],
   "note": "False: proved in general that a batch without the marginalised group stays in although addBatch throws."
  },
  {
   "property": "C23",
   "status": "partial",
   "theorems": [
    "Verif.C23_removeBatch_partial",
    "Verif.C23_removing_last_batch_throws"
   ],
   "note": "False for the last batch: proved that removing it always throws after taking it out."
  },
  {
   "property": "C24",
   "status": "proved",
   "theorems": [
    "Verif.C24_layout_after_rejection"
   ],
   "note": ""
  },
  {
   "property": "C25",
   "status": "proved",
   "theorems": [
    "Verif.C25_information_gains_telescope",
    "Verif.C19_acceptance_rule"
   ],
   "note": "Exact arithmetic in any field; rounding of doubles not modelled here."
  },
  {
   "property": "C50",
   "status": "proved",
   "theorems": [
    "Verif.C50_statistics",
    "Verif.C50_nothing_kept"
   ],
   "note": ""
  },
  {
   "property": "C26",
   "status": "partial",
   "theorems": [
    "Verif.Grid.C26_lookup_exact_partial",
    "Verif.Grid.C26_lookup_int",
    "Verif.Grid.C26_lookup_rounded_partial",
    "Verif.Grid.C26_rounding_breaks_lookup"
   ],
   "note": "False for doubles: a grid and a point in its domain whose index is out of range (witness in correctly rounded binary64). Proved for exact reals and for integers; for rounded arithmetic the index is off by at most one."
  },
  {
   "property": "C27",
   "status": "partial",
   "theorems": [
    "Verif.Grid.C27_roundtrip_exact_partial",
    "Verif.Grid.C27_roundtrip_int_partial",
    "Verif.Grid.C27_int_negative_minimum_breaks",
    "Verif.Grid.C27_roundtrip_int"
   ],
   "note": "Real coordinates: proved. Integer coordinates: completely characterised; false exactly in dimensions of resolution one for cells of negative numbers (witness)."
  },
  {
   "property": "C28",
   "status": "partial",
   "theorems": [
    "Verif.Grid.C28_linear_index_bijection_partial",
    "Verif.Grid.C28_large_grid_overflows"
   ],
   "note": "False when the number of cells exceeds the machine word (witness)."
  },
  {
   "property": "C29",
   "status": "proved",
   "theorems": [
    "Verif.Grid.C29_increment_visits_each_once"
   ],
   "note": ""
  },
  {
   "property": "C30",
   "status": "partial",
   "theorems": [
    "Verif.Grid.C30_too_large_rejected_partial",
    "Verif.Grid.C30_negative_index_accepted"
   ],
   "note": "False for negative indices (witness)."
  },
  {
   "property": "C31",
   "status": "partial",
   "theorems": [
    "Verif.Histogram.C31_histogram_counts_partial",
    "Verif.Histogram.C31_out_of_range_ignored",
    "Verif.Histogram.C31_normalized",
    "Verif.Histogram.C31_double_sample_throws"
   ],
   "note": "For doubles a sample in the domain can throw (witness); proved for exact and integer arithmetic."
  },
  {
   "property": "C32",
   "status": "proved",
   "theorems": [
    "Verif.VecDV.C32_revert_restores",
    "Verif.VecDV.C32_updates_add",
    "Verif.VecDV.C32_parameters_roundtrip"
   ],
   "note": ""
  },
  {
   "property": "C42",
   "status": "partial",
   "theorems": [
    "Verif.C42_categorical_partial",
    "Verif.C42_zero_draw_returns_impossible_category",
    "Verif.C42_bad_probabilities_rejected"
   ],
   "note": "False for the draw 0, which the generator can produce (witness)."
  },
  {
   "property": "C43",
   "status": "proved",
   "theorems": [
    "Verif.C43_log_factorial"
   ],
   "note": "Real arithmetic."
  },
  {
   "property": "C44",
   "status": "partial",
   "theorems": [
    "Verif.C44_timespec_monotone",
    "Verif.C44_timespec_value_partial",
    "Verif.C44_negative_timespec"
   ],
   "note": "Negative time stamps give negative nanoseconds (witness)."
  },
  {
   "property": "C47",
   "status": "partial",
   "theorems": [
    "Verif.C47_sum_log_diag_partial",
    "Verif.C47_wide_matrix_reads_outside",
    "Verif.C47_single_column_rejected"
   ],
   "note": "False for matrices with fewer rows than columns (out-of-bounds read, witness); a single column is rejected."
  },
  {
   "property": "C51",
   "status": "proved",
   "theorems": [
    "Verif.Histogram.C51_mean_variance",
    "Verif.Histogram.C51_mode",
    "Verif.Histogram.C51_median"
   ],
   "note": ""
  },
  {
   "property": "C52",
   "status": "proved",
   "theorems": [
    "Verif.Histogram.C52_binned_mean_close"
   ],
   "note": ""
  },
  {
   "property": "C53",
   "status": "proved",
   "theorems": [
    "Verif.Histogram.C53_mode_is_maximal"
   ],
   "note": ""
  },
  {
   "property": "C54",
   "status": "partial",
   "theorems": [
    "Verif.C54_uniform_real",
    "Verif.C54_uniform_int_range",
    "Verif.C54_empty_support_rejected",
    "Verif.C54_uniform_int_biased"
   ],
   "note": "Uniformity is false for integers: the ends get about half the probability (proved)."
  },
  {
   "property": "C34",
   "status": "partial",
   "theorems": [
    "Verif.MLE1.C34_streaming_partial",
    "Verif.MLE1.C34_reset",
    "Verif.MLE1.C34_order_independent",
    "Verif.MLE1.C34_single_point_stale_variance",
    "Verif.MLE1.C34_rounding_loses_validity",
    "Verif.MLE1.C34_count_overflow",
    "Verif.MLE1.C34_weighted_partial",
    "Verif.MLE1.C34_zero_weights_valid_nan",
    "Verif.MLEd.C34_mv_streaming_partial",
    "Verif.MLEd.C34_mv_single_point_valid"
   ],
   "note": "Proved for exact arithmetic and fewer than 2^32 points, for every history including resets and weighted points; false for doubles (witness) and beyond 2^32 points (witness); the multivariate estimator is 'valid' after one point (proved)."
  },
  {
   "property": "C35",
   "status": "partial",
   "theorems": [
    "Verif.Uniform1.C35_pdf",
    "Verif.Uniform1.C35_variance",
    "Verif.Uniform1.C35_mean_partial",
    "Verif.Uniform1.C35_mean_wrong",
    "Verif.Uniform1.C35_set_support",
    "Verif.Uniform1.C35_set_one_end",
    "Verif.Uniform1.C35_int_partial",
    "Verif.Uniformd.C35_mv_partial",
    "Verif.Uniformd.C35_mv_covariance_wrong"
   ],
   "note": "False: getMean/getMedian are too small by the minimum of the support, the multivariate covariance uses the whole area (both proved, with the exact conditions under which they are right). pdf and 1-D variance proved right."
  },
  {
   "property": "C55",
   "status": "proved",
   "theorems": [
    "Verif.C55_outer_product"
   ],
   "note": ""
  },
  {
   "property": "C56",
   "status": "proved",
   "theorems": [
    "Verif.Normal1.C56_members_consistent",
    "Verif.Normal1.C56_setters",
    "Verif.Normal1.C56_pdf",
    "Verif.Normal1.C56_cdf",
    "Verif.Normal1.C56_moments",
    "Verif.Normal1.C56_kl"
   ],
   "note": "Real arithmetic."
  },
  {
   "property": "C57",
   "status": "partial",
   "theorems": [
    "Verif.GammaD.C57_setters",
    "Verif.GammaD.C57_pdf",
    "Verif.GammaD.C57_mode",
    "Verif.GammaD.C57_moments",
    "Verif.GammaD.C57_chi_square",
    "Verif.GammaD.C57_kl_self_partial",
    "Verif.GammaD.C57_kl_negative"
   ],
   "note": "False for KLDivergence: negative for Gamma(1,1) against Gamma(2,1) (proved). Everything else proved."
  },
  {
   "property": "C33",
   "status": "partial",
   "theorems": [
    "Verif.Transf.C33_set2_apply",
    "Verif.Transf.C33_set3_apply",
    "Verif.Transf.C33_inverse2",
    "Verif.Transf.C33_inverse3",
    "Verif.Transf.C33_rigid2",
    "Verif.Transf.C33_rigid3",
    "Verif.Transf.C33_matrix2",
    "Verif.Transf.C33_matrix3",
    "Verif.Transf.C33_matrix_setter_wrong_inverse",
    "Verif.Transf.C33_inverse_twice2_partial",
    "Verif.Transf.C33_inverse_twice3_partial",
    "Verif.Transf.C33_inverse_twice_wrong",
    "Verif.Transf.C33_matrix_setter_stale_inverse",
    "Verif.Transf.C33_matrix_constructor_inverse_ub"
   ],
   "note": "inverse() maps back (proved); inverse twice multiplies rotation and translation in the wrong order (witness; proved right without rotation or translation); the matrix setter and constructor leave the inverse stale or unset (proved)."
  },
  {
   "property": "C36",
   "status": "partial",
   "theorems": [
    "Verif.CarCal.C36_trigger_not_in_own_window",
    "Verif.CarCal.C36_every_measurement_in_one_place_partial",
    "Verif.CarCal.C36_stream",
    "Verif.CarCal.C36_unprocessed",
    "Verif.CarCal.C36_measurement_lost_on_exception"
   ],
   "note": "Proved for every stream in which the estimator does not throw; a measurement is lost when the estimator throws (witness)."
  },
  {
   "property": "C37",
   "status": "partial",
   "theorems": [
    "Verif.CarCal.C37_window_duration_partial",
    "Verif.CarCal.C37_long_window",
    "Verif.CarCal.C37_histories",
    "Verif.CarCal.C37_histories_aligned"
   ],
   "note": "With non-decreasing times every submitted window is shorter than the duration or ends with its second pose, in which case it can be arbitrarily long (witness: 100 s with a duration of 10 s). Histories proved aligned."
  },
  {
   "property": "C39",
   "status": "partial",
   "theorems": [
    "Verif.ErrorTerms.C39_motion",
    "Verif.ErrorTerms.C39_observation",
    "Verif.ErrorTerms.C39_steering",
    "Verif.ErrorTerms.C39_steering_jacobian_not_finite",
    "Verif.ErrorTerms.C39_velocities",
    "Verif.ErrorTerms.C39_wheel_rear",
    "Verif.ErrorTerms.C39_pose"
   ],
   "note": "Exact real arithmetic. False for the steering term at zero forward velocity (Jacobian not finite, witness); the front wheel term is C40. The pose term is proved for all six rows against a specification of the external Euler angle functions (shown satisfied by the textbook formulas)."
  },
  {
   "property": "C40",
   "status": "partial",
   "theorems": [
    "Verif.ErrorTerms.C40_front_wheel_forward_partial",
    "Verif.ErrorTerms.C40_backward_sign",
    "Verif.ErrorTerms.C40_backward_wrong"
   ],
   "note": "False for backward motion: the velocity block has the wrong sign (proved for every backward velocity, with witness)."
  },
  {
   "property": "C46",
   "status": "partial",
   "theorems": [
    "Verif.ErrorTerms.Weighted.C46_constructor_partial",
    "Verif.ErrorTerms.Weighted.C46_setter_keeps_weight",
    "Verif.ErrorTerms.Weighted.C46_wrong_weight"
   ],
   "note": "False: setCovariance never changes the weighting (proved for every sequence of calls)."
  },
  {
   "property": "C58",
   "status": "proved",
   "theorems": [
    "Verif.CarCal.C58_buffers_by_sensor",
    "Verif.CarCal.C58_batch_uses_exactly_the_admissible"
   ],
   "note": ""
  },
  {
   "property": "C59",
   "status": "partial",
   "theorems": [
    "Verif.CarCal.C59_wheel_weights_partial",
    "Verif.CarCal.C59_rear_variance_ignored"
   ],
   "note": "False for the rear wheels, which get the front variances (proved)."
  },
  {
   "property": "C60",
   "status": "partial",
   "theorems": [
    "Verif.CarCal.C60_segments_exact",
    "Verif.CarCal.C60_segments_partial",
    "Verif.CarCal.C60_equal_times_undefined"
   ],
   "note": "Undefined behaviour when first and last pose have the same time (proved)."
  },
  {
   "property": "C38",
   "status": "proved",
   "theorems": [
    "Verif.Vision.C38_ids_consecutive",
    "Verif.Vision.C38_ids_kept",
    "Verif.Vision.C38_stored_under_own_id"
   ],
   "note": "Assumes the image pipeline never completes the same frame object twice."
  },
  {
   "property": "C41",
   "status": "proved",
   "theorems": [
    "Verif.Geodetic.C41_enu",
    "Verif.Geodetic.C41_ned",
    "Verif.Geodetic.C41_enu_ned"
   ],
   "note": "Real arithmetic; r2quat/quat2r of the external library assumed inverse to each other on rotation matrices."
  },
  {
   "property": "C45",
   "status": "partial",
   "theorems": [
    "Verif.Odometry.C45_slots_partial",
    "Verif.Odometry.C45_wrong_slots",
    "Verif.Odometry.C45_coefficient_lost",
    "Verif.Odometry.C45_determines_partial"
   ],
   "note": "False: the DMI delay overwrites the last steering coefficient and the last slot is never written (proved)."
  },
  {
   "property": "C61",
   "status": "partial",
   "theorems": [
    "Verif.Odometry.C61_batch_order",
    "Verif.Odometry.C61_labels_right_iff_all_active",
    "Verif.Odometry.C61_labels_right",
    "Verif.Odometry.C61_first_rows_partial",
    "Verif.Odometry.C61_default_output_undefined",
    "Verif.Odometry.C61_deviations_undefined"
   ],
   "note": "False: the output is defined and right exactly when all variables are active, which the constructor never sets up (proved)."
  },
  {
   "property": "C62",
   "status": "partial",
   "theorems": [
    "Verif.Vision.C62_matches_partial",
    "Verif.Vision.C62_match_without_frame",
    "Verif.Vision.C62_match_shape",
    "Verif.Vision.C62_stereo_complete"
   ],
   "note": "False for the first side: the reference frame after a reset or recovery is never stored (witness)."
  },
  {
   "property": "C63",
   "status": "proved",
   "theorems": [
    "Verif.Vision.C63_key_frame_decision"
   ],
   "note": ""
  },
  {
   "property": "C64",
   "status": "partial",
   "theorems": [
    "Verif.Vision.C64_defined_partial",
    "Verif.Vision.C64_depends_on_memory",
    "Verif.Vision.C64_negative_memory_undefined"
   ],
   "note": "False: the thresholds are never initialised (witnesses)."
  },
  {
   "property": "C65",
   "status": "proved",
   "theorems": [
    "Verif.Geodetic.C65_on_ellipsoid",
    "Verif.Geodetic.C65_up",
    "Verif.Geodetic.C65_east",
    "Verif.Geodetic.C65_north"
   ],
   "note": "Real arithmetic."
  },
  {
   "property": "C66",
   "status": "proved",
   "theorems": [
    "Verif.Grid.C66_grid_is_a_store"
   ],
   "note": "Grids of at most 2^31 cells: beyond that the int arithmetic of the index overflows."
  },
  {
   "property": "C67",
   "status": "partial",
   "theorems": [
    "Verif.Sampling.C67_exponential_first_nonzero",
    "Verif.Sampling.C67_exponential_tail",
    "Verif.Sampling.C67_geometric_first_nonzero",
    "Verif.Sampling.C67_geometric_tail",
    "Verif.Sampling.C67_poisson",
    "Verif.Sampling.C67_normal",
    "Verif.Sampling.C67_normal_mv",
    "Verif.Sampling.C67_gamma_nonneg_partial",
    "Verif.Sampling.C67_integer_normal_never_returns",
    "Verif.Sampling.C67_integer_exponential_zero",
    "Verif.Sampling.C67_integer_poisson_ignores_mean",
    "Verif.Sampling.C67_gamma_infinite"
   ],
   "note": "Exact real arithmetic, random() as an oracle. False for randomizers of integer type (proved) and for gamma samples with fractional shape (can be infinite, witness); laws under ideal uniform draws: C111."
  },
  {
   "property": "C68",
   "status": "partial",
   "theorems": [
    "Verif.Sampling.C68_reproducible_partial",
    "Verif.Sampling.C68_set_seed_overridden",
    "Verif.Sampling.C68_set_seed_overridden_late",
    "Verif.Sampling.C68_constructor_seed_ignored",
    "Verif.Sampling.C68_same_seed_different_draws"
   ],
   "note": "False: the constructor's seed is ignored (proved for all programs) and the first getSample of a distribution re-seeds from the clock (witness)."
  },
  {
   "property": "C69",
   "status": "partial",
   "theorems": [
    "Verif.TD.C69_trigger_not_in_own_window",
    "Verif.TD.C69_every_measurement_in_one_place_partial",
    "Verif.TD.C69_stream",
    "Verif.TD.C69_unprocessed",
    "Verif.TD.C69_window_duration_partial",
    "Verif.TD.C69_histories",
    "Verif.TD.C69_histories_aligned",
    "Verif.TD.C69_long_window",
    "Verif.TD.C69_measurement_lost_on_exception"
   ],
   "note": "Proved for every stream without exceptions; a measurement is lost when the estimator throws, and a window is arbitrarily long while it has fewer than two poses (witnesses)."
  },
  {
   "property": "C70",
   "status": "partial",
   "theorems": [
    "Verif.TD.C70_batch_contents",
    "Verif.TD.C70_segments_exact",
    "Verif.TD.C70_splines",
    "Verif.TD.C70_segments_partial",
    "Verif.TD.C70_equal_times_undefined"
   ],
   "note": "Contents proved. Undefined behaviour when first and last pose have the same time (proved)."
  },
  {
   "property": "C71",
   "status": "partial",
   "theorems": [
    "Verif.TD.C71_predictions_are_the_terms",
    "Verif.TD.C71_predict_appends_partial",
    "Verif.TD.C71_predict_undefined",
    "Verif.TD.C71_predictions_not_aligned"
   ],
   "note": "Predictions are those of the error terms (proved); pairing by position with the measurements fails (witness), predict with no pose buffered is undefined (proved)."
  },
  {
   "property": "C72",
   "status": "proved",
   "theorems": [
    "Verif.Ego.C72_trigger_not_in_own_window",
    "Verif.Ego.C72_every_measurement_in_one_place",
    "Verif.Ego.C72_stream",
    "Verif.Ego.C72_unprocessed",
    "Verif.Ego.C72_window_duration",
    "Verif.Ego.C72_histories",
    "Verif.Ego.C72_histories_aligned"
   ],
   "note": "Proved for accepted measurements; a measurement whose call threw is nowhere (C74)."
  },
  {
   "property": "C73",
   "status": "partial",
   "theorems": [
    "Verif.Ego.C73_batch_contents",
    "Verif.Ego.C73_segments_exact",
    "Verif.Ego.C73_splines",
    "Verif.Ego.C73_first_measurement_unused",
    "Verif.Ego.C73_terms_span_the_measured_interval",
    "Verif.Ego.C73_gap_breaks_the_interval",
    "Verif.Ego.C73_true_calibration_has_no_error",
    "Verif.Ego.C73_gauge_freedom"
   ],
   "note": "Contents proved; the interval is the measured one exactly for gap-free measurement streams (proved; witness with a gap); the first used measurement of every sensor and window is never compared (proved)."
  },
  {
   "property": "C74",
   "status": "partial",
   "theorems": [
    "Verif.Ego.C74_stuck_forever",
    "Verif.Ego.C74_clear_then_late_measurement",
    "Verif.Ego.C74_reachable"
   ],
   "note": "False: once the window has run out without a usable reference, no later call succeeds (proved for every continuation, with a reachable witness)."
  },
  {
   "property": "C75",
   "status": "partial",
   "theorems": [
    "Verif.Ego.C75_dead_reckoning_partial",
    "Verif.Ego.C75_trajectory_of_a_window",
    "Verif.Ego.C75_predict_moves_the_trajectory"
   ],
   "note": "Proved without exceptions and without predict; predict() moves the starting pose of later batches (proved)."
  },
  {
   "property": "C76",
   "status": "proved",
   "theorems": [
    "Verif.Camera.C76_accounting",
    "Verif.Camera.C76_collect",
    "Verif.Camera.C76_submit",
    "Verif.Camera.C76_process",
    "Verif.Camera.C76_bound",
    "Verif.Camera.C76_never",
    "Verif.Camera.C76_geometry"
   ],
   "note": "Every history, with exceptions. After an exception or when batchNumImages is lowered below the pending count, images only accumulate (C76_never)."
  },
  {
   "property": "C77",
   "status": "proved",
   "theorems": [
    "Verif.Camera.C77_batch",
    "Verif.Camera.C77_poses",
    "Verif.Camera.C77_estimated"
   ],
   "note": ""
  },
  {
   "property": "C78",
   "status": "partial",
   "theorems": [
    "Verif.Camera.C78_order",
    "Verif.Camera.C78_match_partial",
    "Verif.Camera.C78_mismatch"
   ],
   "note": "False from the second accepted submission on: observations are prepended, poses appended (proved, reachable witness)."
  },
  {
   "property": "C79",
   "status": "partial",
   "theorems": [
    "Verif.Camera.C79_silent",
    "Verif.Camera.C79_stuck",
    "Verif.Camera.C79_after_failure"
   ],
   "note": "False: after an exception of the optimizer no later submission succeeds, and no image triggers one (proved for every continuation, reachable witness)."
  },
  {
   "property": "C80",
   "status": "partial",
   "theorems": [
    "Verif.Camera.C80_empty_submission"
   ],
   "note": "False once one submission has returned (proved): an empty batch is submitted; it can be accepted (witness)."
  },
  {
   "property": "C81",
   "status": "proved",
   "theorems": [
    "Verif.CamReport.C81_collected",
    "Verif.CamReport.C81_distances",
    "Verif.CamReport.C81_statistics"
   ],
   "note": "Real instead of double arithmetic; the positivity test of the linear algebra library is assumed right in C81_statistics."
  },
  {
   "property": "C82",
   "status": "partial",
   "theorems": [
    "Verif.CamReport.C82_last_image",
    "Verif.CamReport.C82_average_wrong"
   ],
   "note": "All numbers but the average are right (proved); the average is divided by the number of all corners of the target, so it is too small whenever a corner is missing (proved with exact condition)."
  },
  {
   "property": "C83",
   "status": "proved",
   "theorems": [
    "Verif.CamReport.C83_errors",
    "Verif.CamReport.C83_errors_of_accepted_images",
    "Verif.CamReport.C83_statistics"
   ],
   "note": "C83_errors for every history with exceptions; real instead of double arithmetic."
  },
  {
   "property": "C84",
   "status": "partial",
   "theorems": [
    "Verif.CamReport.C84_projection_first",
    "Verif.CamReport.C84_distortion_first",
    "Verif.CamReport.C84_no_batch",
    "Verif.CamReport.C84_write_partial",
    "Verif.CamReport.C84_after_failure"
   ],
   "note": "Right if the projection variable is enumerated first (pointer order); swapped otherwise (proved). write() is undefined behaviour exactly while no submission was accepted, if no call threw (proved); after a failed first submission the getters are undefined (proved)."
  },
  {
   "property": "C85",
   "status": "partial",
   "theorems": [
    "Verif.CamMain.C85_every_image",
    "Verif.CamMain.C85_no_geometry",
    "Verif.CamMain.C85_saved_images",
    "Verif.CamMain.C85_result_partial"
   ],
   "note": "Every image proved (unless an exception ends the program). Only the last image of each accepted full batch is written (proved); undefined behaviour at the end when no submission was accepted (proved)."
  },
  {
   "property": "C86",
   "status": "proved",
   "theorems": [
    "Verif.SimTD.C86_simulated_data",
    "Verif.SimTD.C86_no_termination",
    "Verif.SimTD.C86_zero_variance"
   ],
   "note": "Real instead of double arithmetic; the samples are arbitrary."
  },
  {
   "property": "C87",
   "status": "partial",
   "theorems": [
    "Verif.SimTD.C87_motion",
    "Verif.SimTD.C87_heading",
    "Verif.SimTD.C87_straight",
    "Verif.SimTD.C87_off_the_path"
   ],
   "note": "Orientations proved. The positions leave the sine path (proved for every amplitude but zero): each step uses the previous orientation, and the first step does not turn."
  },
  {
   "property": "C88",
   "status": "partial",
   "theorems": [
    "Verif.SimTD.C88_no_error_partial",
    "Verif.SimTD.C88_delay_is_negated",
    "Verif.SimTD.C88_knots"
   ],
   "note": "False for the delay: the calibrator explains the data with the negated delay and no other (proved). The splines passing through the simulated velocities is a hypothesis (external library)."
  },
  {
   "property": "C89",
   "status": "partial",
   "theorems": [
    "Verif.SimTD.C89_prediction_partial",
    "Verif.SimTD.C89_standing"
   ],
   "note": "True exactly without sideways slip; a standing wheel has no finite prediction (both proved)."
  },
  {
   "property": "C90",
   "status": "proved",
   "theorems": [
    "Verif.SimEgo.C90_simulated_motions",
    "Verif.SimEgo.C90_telescope",
    "Verif.SimEgo.C90_uncalibrated",
    "Verif.SimEgo.C90_no_termination"
   ],
   "note": "Rigid motions are elements of a group; the fitted splines are a function of time; real instead of double arithmetic."
  },
  {
   "property": "C91",
   "status": "proved",
   "theorems": [
    "Verif.SimEgo.C91_end_to_end",
    "Verif.SimEgo.C91_one_window",
    "Verif.SimEgo.C91_nothing_to_calibrate"
   ],
   "note": "Estimator and spline fitter are parameters; the files written are not modelled."
  },
  {
   "property": "C92",
   "status": "partial",
   "theorems": [
    "Verif.SimEgo.C92_poses",
    "Verif.SimEgo.C92_planar_steps",
    "Verif.SimEgo.C92_straight_speed",
    "Verif.SimEgo.C92_combined_jump",
    "Verif.SimEgo.C92_combined_counterexample"
   ],
   "note": "False for combined trajectories: the second third restarts the path at the origin but not its clock, so the vehicle jumps (proved, exact size and witness). Nothing is claimed about the size of random steps."
  },
  {
   "property": "C93",
   "status": "proved",
   "theorems": [
    "Verif.SimEgo.C93_best",
    "Verif.SimEgo.C93_aligned"
   ],
   "note": "Real instead of double arithmetic."
  },
  {
   "property": "C94",
   "status": "partial",
   "theorems": [
    "Verif.Lrf.C94_inputs_partial",
    "Verif.Lrf.C94_first_turn",
    "Verif.Lrf.C94_step_not_positive",
    "Verif.Lrf.C94_count_rounded",
    "Verif.Lrf.C94_one_more",
    "Verif.Lrf.C94_stalls"
   ],
   "note": "Proved in exact arithmetic but for the first turn, which contains the path's whole initial direction (proved to differ for every amplitude but zero). With rounded times one input more than asked for is possible, never fewer (proved under a bound on the drift); a time step that is not positive gives a single input."
  },
  {
   "property": "C95",
   "status": "partial",
   "theorems": [
    "Verif.Lrf.C95_initial_landmarks",
    "Verif.Lrf.C95_exact_data",
    "Verif.Lrf.C95_no_ranges",
    "Verif.Lrf.C95_short_record_undefined"
   ],
   "note": "Proved for complete records in exact arithmetic. With fewer rows than poses the program reads outside the record (proved); without rows the old guesses stay."
  },
  {
   "property": "C96",
   "status": "partial",
   "theorems": [
    "Verif.Lrf.C96_record",
    "Verif.Lrf.C96_observation_noise",
    "Verif.Lrf.C96_motion_noise_partial",
    "Verif.Lrf.C96_odometry",
    "Verif.Lrf.C96_sine_path",
    "Verif.Lrf.C96_heading_wrap",
    "Verif.Lrf.C96_short_inputs_undefined",
    "Verif.Lrf.C96_bad_motion_noise",
    "Verif.Lrf.C96_bad_measurement_noise"
   ],
   "note": "Observations proved. The motion error does not wrap angles: in a step in which the heading wraps it is off by a full turn per time step (proved, with witness); the shipped path never wraps at the truth (proved)."
  },
  {
   "property": "C97",
   "status": "partial",
   "theorems": [
    "Verif.Lrf.C97_decisions_partial",
    "Verif.Lrf.C97_ragged_undefined",
    "Verif.Lrf.C97_keep_iff",
    "Verif.Lrf.C97_zero_determinant",
    "Verif.Lrf.C97_rejection_not_undone"
   ],
   "note": "Decisions proved when the batch size divides the number of steps, otherwise undefined behaviour (proved). A rejected batch is not undone: the values written at the end and the starting point of the next round include it (proved, with witness)."
  },
  {
   "property": "C98",
   "status": "partial",
   "theorems": [
    "Verif.Lrf.C98_batch",
    "Verif.Lrf.C98_batch_starts",
    "Verif.Lrf.C98_zero_batch_size",
    "Verif.Lrf.C98_states_once",
    "Verif.Lrf.C98_measurements_partial",
    "Verif.Lrf.C98_first_measurements_dropped",
    "Verif.Lrf.C98_offline",
    "Verif.Lrf.C98_offline_needs_landmarks"
   ],
   "note": "False for measurements: those of the first state of every batch are in no batch (proved, exact characterisation). States once and batch building proved on the real batch model; batch size zero does not terminate."
  },
  {
   "property": "C99",
   "status": "partial",
   "theorems": [
    "Verif.SplineProblem.C99_add_spline",
    "Verif.SplineProblem.C99_add_spline_fails",
    "Verif.SplineProblem.C99_history",
    "Verif.SplineProblem.C99_defined",
    "Verif.SplineProblem.C99_contained_partial",
    "Verif.SplineProblem.C99_clear_keeps_splines",
    "Verif.SplineProblem.C99_listed_but_not_contained",
    "Verif.SplineProblem.C99_owned_partial",
    "Verif.SplineProblem.C99_dangling_after_exception",
    "Verif.SplineProblem.C99_get_spline"
   ],
   "note": "Histories proved. False parts: clear() empties the batch but keeps listing its splines (contained: proved without clear); an addSpline that throws leaves variables in the batch that nothing keeps alive (owned: proved if none throws); the egomotion getter is unchecked in release builds. All with witnesses."
  },
  {
   "property": "C100",
   "status": "partial",
   "theorems": [
    "Verif.SplineOut.C100_rows",
    "Verif.SplineOut.C100_all_batches",
    "Verif.SplineOut.C100_zero_step_never_ends",
    "Verif.SplineOut.C100_negative_step_fails",
    "Verif.SplineOut.C100_missing_rotation",
    "Verif.SplineOut.C100_other_batch_undefined"
   ],
   "note": "Proved for steps of at least one nanosecond; a smaller step never ends (proved); a batch with fewer rotation than translation splines throws, a batch of another type is undefined behaviour."
  },
  {
   "property": "C101",
   "status": "proved",
   "theorems": [
    "Verif.SplineOut.C101_batch",
    "Verif.SplineOut.C101_no_calibration_variables"
   ],
   "note": "Distinct variables are a hypothesis (fresh objects); without calibration variables the ordering call throws."
  },
  {
   "property": "C102",
   "status": "partial",
   "theorems": [
    "Verif.TDVars.C102_parameters",
    "Verif.TDVars.C102_parameters_determine",
    "Verif.TDVars.C102_td_report",
    "Verif.TDVars.C102_td_report_any",
    "Verif.TDVars.C102_td_columns",
    "Verif.TDVars.C102_td_wrong_label",
    "Verif.EgoVars.C102_ego_report",
    "Verif.EgoVars.C102_ego_fixed_reference",
    "Verif.EgoVars.C102_ego_parameters_partial",
    "Verif.EgoVars.C102_ego_same_index"
   ],
   "note": "Parameter vectors proved (egomotion: for distinct sensor indices; of two sensors with one index only the last exists). Reports: right exactly if all variables are active; otherwise rows are mislabelled or read beyond the matrix (proved), which includes the usual fixed reference sensor."
  },
  {
   "property": "C103",
   "status": "partial",
   "theorems": [
    "Verif.CarCal.C103_predictions_partial",
    "Verif.CarCal.C103_terms_of_the_batch",
    "Verif.CarCal.C103_stamps_differ",
    "Verif.CarCal.C103_undefined",
    "Verif.CarCal.C103_unprocessed_but_undefined",
    "Verif.CarCal.C103_twice",
    "Verif.CarCal.C103_exception_keeps"
   ],
   "note": "Exact contents proved for every history. False and proved so: stamps are those of the measurements (delayed sensors are stamped with the delayed time); the call is undefined without two different pose times although measurements are unprocessed (the analyzer's only check)."
  },
  {
   "property": "C104",
   "status": "partial",
   "theorems": [
    "Verif.CarKin.C104_wheel_velocities",
    "Verif.CarKin.C104_sensor_velocity",
    "Verif.CarKin.C104_knots_reproduce",
    "Verif.CarKin.C104_prediction_plus_error_partial",
    "Verif.CarKin.C104_slip",
    "Verif.CarKin.C104_front_prediction",
    "Verif.CarKin.C104_gate",
    "Verif.CarKin.C104_gate_straight",
    "Verif.CarKin.C104_gate_admits_backward_wheels",
    "Verif.CarKin.C104_steering_units",
    "Verif.CarKin.C104_steering_error"
   ],
   "note": "Rigid body kinematics proved by derivatives. False and proved so: the predicted steering is an angle, the measurement a raw value; the gate on the vehicle speed admits wheels rolling backwards."
  },
  {
   "property": "C105",
   "status": "partial",
   "theorems": [
    "Verif.CarMain.C105_calls",
    "Verif.CarMain.C105_online",
    "Verif.CarMain.C105_pose_then_velocity",
    "Verif.CarMain.C105_units",
    "Verif.CarMain.C105_positions",
    "Verif.CarMain.C105_velocity",
    "Verif.CarMain.C105_position_covariance",
    "Verif.CarMain.C105_velocity_covariance",
    "Verif.CarMain.C105_odometer_partial",
    "Verif.CarMain.C105_odometer_sentinel",
    "Verif.CarMain.C105_odometer_same_time",
    "Verif.CarMain.C105_end_partial",
    "Verif.CarMain.C105_end_drops",
    "Verif.CarMain.C105_analysis_last_window_only",
    "Verif.CarMain.C105_analysis_exact"
   ],
   "note": "Calls, geometry and odometer proved for all message sequences. False and proved so: covariances are those of north/east/down attached to east/north/up and to the vehicle frame; odometer time -1 loses distance, equal times give a value that is not finite; leftover measurements with fewer than two poses are dropped; the analyzer predicts the last window only."
  },
  {
   "property": "C106",
   "status": "partial",
   "theorems": [
    "Verif.Tsvd.C106_options",
    "Verif.Tsvd.C106_solve",
    "Verif.Tsvd.C106_build",
    "Verif.Tsvd.C106_analyze",
    "Verif.Tsvd.C106_memory_partial",
    "Verif.Tsvd.C106_leak",
    "Verif.Tsvd.C106_rhsJtJrhs_wrong"
   ],
   "note": "Library (transpose, factorisation) is a parameter. False and proved so: each solveSystem that throws leaks the transposed matrix (exactly one each); rhsJtJrhs returns another quantity."
  },
  {
   "property": "C107",
   "status": "partial",
   "theorems": [
    "Verif.NormalV.C107_setCovariance_partial",
    "Verif.NormalV.C107_parameters",
    "Verif.NormalV.C107_members",
    "Verif.NormalV.C107_density",
    "Verif.NormalV.C107_kl",
    "Verif.NormalV.C107_samples_partial",
    "Verif.NormalV.C107_rejected_call_changes_samples",
    "Verif.NormalV.C107_singular_accepted"
   ],
   "note": "Real instead of double arithmetic. False and proved so: a rejected setCovariance changes the distribution sampled from; a singular positive semidefinite covariance is accepted."
  },
  {
   "property": "C108",
   "status": "partial",
   "theorems": [
    "Verif.Opts.C108_car_partial",
    "Verif.Opts.C108_timedelay_partial",
    "Verif.Opts.C108_egomotion_partial",
    "Verif.Opts.C108_egomotion_trajectory_partial",
    "Verif.Opts.C108_timedelay_trajectory",
    "Verif.Opts.C108_order_unset",
    "Verif.Opts.C108_wraps"
   ],
   "note": "Exact for every configuration that has a translation spline order and whose small integers fit. False and proved so: without that entry the order is whatever is in memory; a cutoff beyond 16 bits and a negative reference sensor wrap silently."
  },
  {
   "property": "C109",
   "status": "partial",
   "theorems": [
    "Verif.LogGamma.C109_value_partial",
    "Verif.LogGamma.C109_range_partial",
    "Verif.LogGamma.C109_one_dimension",
    "Verif.LogGamma.C109_overflow"
   ],
   "note": "Proved up to dimension 2^32 in real arithmetic; from 2^32+1 on an integer product wraps and the value is wrong (proved)."
  },
  {
   "property": "C110",
   "status": "partial",
   "theorems": [
    "Verif.CamVal.C110_report",
    "Verif.CamVal.C110_saved_images",
    "Verif.CamVal.C110_own_image_partial",
    "Verif.CamVal.C110_stale_images"
   ],
   "note": "Report proved. Saved files: exactly those of images with a detected target show what their name says; the others are empty or copies of an older image (proved, witness), and nothing is saved without visualisation."
  },
  {
   "property": "C111",
   "status": "partial",
   "theorems": [
    "Verif.Ideal.C111_bridge",
    "Verif.Ideal.C111_bridge_one_draw",
    "Verif.Ideal.C111_uniform",
    "Verif.Ideal.C111_uniform_mv",
    "Verif.Ideal.C111_uniform_int_partial",
    "Verif.Ideal.C111_exponential",
    "Verif.Ideal.C111_geometric",
    "Verif.Ideal.C111_poisson",
    "Verif.Ideal.C111_normal",
    "Verif.Ideal.C111_normal_mv",
    "Verif.Ideal.C111_normal_mv_object",
    "Verif.Ideal.C111_categorical",
    "Verif.Ideal.C111_gamma_partial",
    "Verif.Ideal.C111_gamma_tiny_shape",
    "Verif.Ideal.C111_chi_square",
    "Verif.Ideal.C111_repeated_calls",
    "Verif.Ideal.C111_rejected"
   ],
   "note": "Exact for all samplers of real type, under independent uniform draws on [0,1] in real arithmetic. False and proved so: integer uniform samples give the ends half the probability; gamma drops a fractional shape of at most 2^-52 (shapes that small give only zeros)."
  },
  {
   "property": "C112",
   "status": "partial",
   "theorems": [
    "Verif.GammaCdf.C112_incomplete",
    "Verif.GammaD.C112_cdf",
    "Verif.GammaD.C112_invcdf",
    "Verif.GammaD.C112_median_partial",
    "Verif.GammaD.C112_median_not_median",
    "Verif.GammaD.C112_kl_partial",
    "Verif.GammaD.C112_kl_right_iff"
   ],
   "note": "Exact real arithmetic; boost functions are the functions they approximate. False and proved so: invcdf(1) throws; getMedian is not the median; KLDivergence is the divergence exactly when the other shape is one or the shapes are equal."
  },
  {
   "property": "C113",
   "status": "partial",
   "theorems": [
    "Verif.C113_any_history",
    "Verif.C113_add_error_term",
    "Verif.C113_same_error_term_twice",
    "Verif.C113_clear_keeps_variables",
    "Verif.C113_added_variable",
    "Verif.C113_shared_variable_lost",
    "Verif.C113_remove_undefined"
   ],
   "note": "Proved for every history: batches stay consistent and the problem's error terms are those of its batches; a new error term in a contained batch keeps all guarantees. False and proved so: a term can be listed twice; variables of a cleared batch stay; a variable given to a contained batch leaves a wrong count, is enumerated wrongly or is lost for another batch, and a later remove can be undefined behaviour."
  },
  {
   "property": "C114",
   "status": "partial",
   "theorems": [
    "Verif.Opts.C114_timedelay",
    "Verif.Opts.C114_timedelay_simulates",
    "Verif.Opts.C114_default_simulates",
    "Verif.Opts.C114_egomotion_partial",
    "Verif.Opts.C114_egomotion_complete_partial",
    "Verif.Opts.C114_same_index",
    "Verif.Opts.C114_overflow"
   ],
   "note": "Time delay: complete. Egomotion: the translation spline order must have an entry, the indices must not be negative and the number of sensors must be below the largest int; otherwise false, proved by witnesses (also: two sensors with the same index are silently merged)."
  },
  {
   "property": "C115",
   "status": "partial",
   "theorems": [
    "Verif.SimTD.C115_end_to_end_partial",
    "Verif.SimTD.C115_one_window",
    "Verif.SimTD.C115_no_step",
    "Verif.SimTD.C115_rejected",
    "Verif.SimTD.C115_single_step"
   ],
   "note": "Proved up to the last step: its measurements are dropped without notice if the last window holds fewer than two poses (witness: a simulation of one step submits nothing)."
  },
  {
   "property": "C116",
   "status": "proved",
   "theorems": [
    "Verif.Ego.C116_predictions",
    "Verif.Ego.C116_aligned",
    "Verif.Ego.C116_no_reference",
    "Verif.Ego.C116_too_many_segments"
   ],
   "note": "The lists are protected members. That predict moves the start of the next trajectory is C75."
  },
  {
   "property": "C117",
   "status": "partial",
   "theorems": [
    "Verif.OnlineNew.C117_outcomes",
    "Verif.OnlineNew.C117_rounds",
    "Verif.OnlineNew.C117_problem",
    "Verif.OnlineNew.C117_report",
    "Verif.OnlineNew.C117_nothing_accepted",
    "Verif.OnlineNew.C117_rounds_refused",
    "Verif.OnlineNew.C117_refusal_possible",
    "Verif.OnlineNew.C117_missing_group",
    "Verif.OnlineNew.C117_total"
   ],
   "note": "For a positive batch size and a group to eliminate that the batches have; otherwise the first batch ends the program and stays in the problem (C117_missing_group). If nothing is accepted the program throws instead of reporting (witness). The printed total is one too small if the last batch is shorter than half a batch (C117_total). The alignment of the results by threePointSvd is not modelled."
  },
  {
   "property": "C118",
   "status": "partial",
   "theorems": [
    "Verif.C118_left_alone_partial",
    "Verif.C118_estimator_dead",
    "Verif.C118_variables_stay",
    "Verif.C118_wrong_index",
    "Verif.C118_ordering_stuck"
   ],
   "note": "Proved for every state: batches, error terms, values, statistics and known variables are left alone. False otherwise and proved so for all later histories: one variable offered under a new group stops every later addBatch, reoptimize and removeBatch; a batch offered twice leaves its variables in for ever; the group ordering can no longer be set; the optimizer can be run on a wrong enumeration."
  },
  {
   "property": "C119",
   "status": "partial",
   "theorems": [
    "Verif.C119_consistent_partial",
    "Verif.C119_clear_reverts",
    "Verif.C119_gain_against_removed"
   ],
   "note": "The consistency part is proved for all histories of acceptable batches. False and proved so: clear() keeps the backup, so that a later rejected batch sets variables of batches long gone back to old values; and the information gain is measured against batches that are gone."
  },
  {
   "property": "C120",
   "status": "partial",
   "theorems": [
    "Verif.Grid.C120_real",
    "Verif.Grid.C120_int",
    "Verif.Grid.C120_rounded"
   ],
   "note": "Complete characterisation, up to memory being unlimited. The property as stated fails for grids whose numbers of cells (or their product without the first) exceed an int: proved to be undefined behaviour, in every dimension. In floating point the length and quotient are the rounded ones (C26 shows that this breaks the covering)."
  },
  {
   "property": "C121",
   "status": "proved",
   "theorems": [
    "Verif.CalibLib.C121_never_refused",
    "Verif.CalibLib.C121_windows",
    "Verif.CalibLib.C121_problem",
    "Verif.CalibLib.C121_objects",
    "Verif.CalibLib.C121_car",
    "Verif.CalibLib.C121_time_delay",
    "Verif.CalibLib.C121_egomotion",
    "Verif.CalibLib.C121_entries",
    "Verif.CalibLib.C121_wrong_group"
   ],
   "note": "Up to the largest number of batches a problem can hold. Assumes of a window that its splines have design variables and that its error terms depend on these and on calibration variables. C121_wrong_group: with another group in the configuration the first window ends in an exception."
  },
  {
   "property": "C122",
   "status": "partial",
   "theorems": [
    "Verif.CalibLib.C122_together_partial",
    "Verif.CalibLib.C122_failed_run",
    "Verif.CalibLib.C122_witness"
   ],
   "note": "Proved for every history in which no call threw. False otherwise, proved for every state: after a run of the optimizer that failed the calibration is what that run left, the uncertainties are still those of the last accepted window."
  },
  {
   "property": "C123",
   "status": "proved",
   "theorems": [
    "Verif.CarCal.C123_car",
    "Verif.CarCal.C123_car_histories",
    "Verif.TD.C123_time_delay",
    "Verif.Ego.C123_egomotion"
   ],
   "note": "Measurements whose call returned normally; one whose call threw is nowhere (C36, C69, C74)."
  },
  {
   "property": "C124",
   "status": "partial",
   "theorems": [
    "Verif.Camera.C124_together_partial",
    "Verif.Camera.C124_poses",
    "Verif.Camera.C124_failed_run",
    "Verif.Camera.C124_witness"
   ],
   "note": "Proved for every history in which no call threw. False otherwise, proved for every state: after a run of the optimizer that failed all values are those that run left, the statistics are those of before. (Which image a pose index belongs to: C78.)"
  },
  {
   "property": "C125",
   "status": "proved",
   "theorems": [
    "Verif.CalibLib.C125_car",
    "Verif.CalibLib.C125_time_delay",
    "Verif.CalibLib.C125_egomotion",
    "Verif.CalibLib.C125_car_witness"
   ],
   "note": "For runs that end normally, which is the hypothesis of the property; when they do is the subject of C115, C91, C105 and C121."
  },
  {
   "property": "C126",
   "status": "proved",
   "theorems": [
    "Verif.C126_car",
    "Verif.TD.C126_time_delay",
    "Verif.Ego.C126_egomotion",
    "Verif.CalibLib.C126_library_answers",
    "Verif.C126_car_program",
    "Verif.SimTD.C126_time_delay_program",
    "Verif.SimEgo.C126_egomotion_program"
   ],
   "note": "Rounding of the number of spline segments is exact arithmetic in the model (see DESIGN.md). Without strictly increasing poses calls can be undefined: C60, C70."
  },
  {
   "property": "C127",
   "status": "proved",
   "theorems": [
    "Verif.C127_estimator_calls_end"
   ],
   "note": "Up to the largest number of batches a problem can hold. After an offered batch was refused as incompatible the problem is damaged: C15, C118."
  },
  {
   "property": "C128",
   "status": "proved",
   "theorems": [
    "Verif.Camera.C128_camera_calls_end",
    "Verif.Camera.C128_wrong_group"
   ],
   "note": "Up to the largest number of batches a problem can hold. What happens after an exception: C79."
  },
  {
   "property": "C129",
   "status": "proved",
   "theorems": [
    "Verif.C129_determined_by_batches",
    "Verif.C129_estimator",
    "Verif.C129_order_depends_on_history"
   ],
   "note": "Histories as in C10 (contained batches are not changed, no refused batch). C129_order_depends_on_history: the order of groups and variables is not determined."
  },
  {
   "property": "C130",
   "status": "proved",
   "theorems": [
    "Verif.C130_samples",
    "Verif.C130_split",
    "Verif.C130_uniform_box",
    "Verif.C130_uniform_refused",
    "Verif.C130_uniform_int",
    "Verif.C130_law"
   ],
   "note": "The raw number that the construction of a static randomizer consumes at the first draw is not part of this model (it is in C68's)."
  },
  {
   "property": "C131",
   "status": "proved",
   "theorems": [
    "Verif.C131_text",
    "Verif.C131_told_apart",
    "Verif.C131_not_determined"
   ],
   "note": "How a type is written to a stream is a parameter. C131_not_determined: in general the text does not determine what was handed over."
  },
  {
   "property": "C132",
   "status": "partial",
   "theorems": [
    "Verif.C132_rounding",
    "Verif.C132_exact",
    "Verif.C132_rounds_partial",
    "Verif.C132_one_more",
    "Verif.C132_stalls",
    "Verif.C132_path",
    "Verif.C132_path_one_more"
   ],
   "note": "Up to 2^26 steps the number of rounds is the exact one up to one; the exact number is false (C132_one_more: steps of a tenth up to one), and with 2^54 steps the loop never ends (C132_stalls). Overflow and underflow are not modelled."
  },
  {
   "property": "C133",
   "status": "partial",
   "theorems": [
    "Verif.C133_sample",
    "Verif.C133_in_support_partial",
    "Verif.C133_refused",
    "Verif.C133_zero_minimum",
    "Verif.C133_outside"
   ],
   "note": "False in general (C133_outside: a sample above the support); the samples stay inside if the width is a double, and otherwise exceed the maximum by at most two rounding errors. Overflow and underflow are not modelled."
  },
  {
   "property": "C134",
   "status": "partial",
   "theorems": [
    "Verif.C134_text",
    "Verif.C134_ostream",
    "Verif.C134_ofstream",
    "Verif.C134_file_partial",
    "Verif.C134_lost",
    "Verif.C134_no_round_trip",
    "Verif.C134_told_apart"
   ],
   "note": "False on variables of type std::ofstream when an object comes first (C134_lost), and for reading (C134_no_round_trip: read members are empty). How a number or a matrix is formatted is a parameter."
  },
  {
   "property": "C135",
   "status": "partial",
   "theorems": [
    "Verif.CarMain.C135_data_files",
    "Verif.CarMain.C135_crash_partial",
    "Verif.CarMain.C135_each_file",
    "Verif.CarMain.C135_phantom"
   ],
   "note": "Proved for normal ends; for an exception at any call the exact contents are proved, which differ from the claim (C135_phantom: a velocity that was never handed over). Numbers are values, not text."
  },
  {
   "property": "C136",
   "status": "partial",
   "theorems": [
    "Verif.SimTD.C136_files",
    "Verif.C136_inherits",
    "Verif.SimTD.C136_crash_partial",
    "Verif.SimTD.C136_splines_fail",
    "Verif.SimTD.C136_refused",
    "Verif.SimTD.C136_stale"
   ],
   "note": "Proved but for the last clause, which is false (C136_stale). Numbers are values, not text; files can be opened."
  },
  {
   "property": "C137",
   "status": "partial",
   "theorems": [
    "Verif.SimEgo.C137_files",
    "Verif.C137_inherits",
    "Verif.SimEgo.C137_crash_partial",
    "Verif.SimEgo.C137_trajectory_fails",
    "Verif.SimEgo.C137_estimate_fails",
    "Verif.SimEgo.C137_foreign"
   ],
   "note": "Proved but for the last clause, which is false even after a normal end (C137_foreign). Numbers are values, not text; files can be opened."
  },
  {
   "property": "C138",
   "status": "partial",
   "theorems": [
    "Verif.CarMain.C138_results_partial",
    "Verif.CarMain.C138_undefined",
    "Verif.CarMain.C138_crash",
    "Verif.CarMain.C138_inherits"
   ],
   "note": "Proved if the estimator offers at least eighteen variances. False otherwise, and with the variables the constructor activates it is always otherwise: C138_undefined. That the covariance has one row per calibrated dimension is a hypothesis on the linear solver."
  },
  {
   "property": "C139",
   "status": "partial",
   "theorems": [
    "Verif.Dbl.C139_segments_partial",
    "Verif.Dbl.C139_exact_car",
    "Verif.Dbl.C139_exact_timeDelay",
    "Verif.Dbl.C139_exact_egomotion",
    "Verif.Dbl.C139_one_more",
    "Verif.Dbl.C139_tie"
   ],
   "note": "False as stated: one segment too many for some durations with a whole number of segments (C139_one_more), the other branch at a rate half a pose above the knots (C139_tie). Proved: these are the only two deviations, and nothing overflows. Underflow is not modelled."
  },
  {
   "property": "C140",
   "status": "partial",
   "theorems": [
    "Verif.CarMain.C140_files_partial",
    "Verif.CarMain.C140_failure",
    "Verif.CarMain.C140_inherits",
    "Verif.CarMain.C140_no_pose",
    "Verif.CarMain.C140_missing"
   ],
   "note": "Proved for the measurements buffered at the end; false for all recorded ones (C140_missing: the predictions of the windows already submitted are missing) and undefined if no pose is buffered at the end (C140_no_pose). A failure while writing the trajectory leaves that one file. Numbers are values, not text."
  },
  {
   "property": "C141",
   "status": "partial",
   "theorems": [
    "Verif.Dbl.C141_timespec_partial",
    "Verif.Dbl.C141_timespec_monotone",
    "Verif.Dbl.C141_now_strict",
    "Verif.Dbl.C141_elapsed",
    "Verif.Dbl.C141_now_recovered",
    "Verif.Dbl.C141_moved",
    "Verif.Dbl.C141_truncated",
    "Verif.Dbl.C141_collision"
   ],
   "note": "False as stated: the microseconds of the timespec can be one too small (C141_truncated; rounding instead of truncating recovers them, C141_now_recovered), and beyond 2^33 s different microseconds give equal time stamps (C141_collision). Proved until 2^32 s (year 2106), with the difference exact to 1.5 microseconds. Negative times: C44."
  },
  {
   "property": "C142",
   "status": "partial",
   "theorems": [
    "Verif.Traits.C142_variant_partial",
    "Verif.Traits.C142_one_variant",
    "Verif.Traits.C142_logic",
    "Verif.Traits.C142_real",
    "Verif.Traits.C142_long_double"
   ],
   "note": "False for long double, which gets the integer variants (C142_long_double); proved for all other arithmetic types."
  },
  {
   "property": "C143",
   "status": "partial",
   "theorems": [
    "Verif.MLE1.C143_error_partial",
    "Verif.MLE1.C143_equal_points",
    "Verif.MLE1.C34_rounding_loses_validity"
   ],
   "note": "The error bounds are proved for all histories; validity is false as stated in both directions (three equal points: valid with a mean greater than all of them; two distinct points: invalid) and proved for points that vary more than the error bound."
  },
  {
   "property": "C144",
   "status": "partial",
   "theorems": [
    "Verif.Dbl.C144_category_partial",
    "Verif.Dbl.C144_impossible_last",
    "Verif.C42_zero_draw_returns_impossible_category"
   ],
   "note": "The interval is proved for up to 2^49 categories. A category of probability zero is never returned unless it is the last one (C144_impossible_last: ten tenths and a zero, largest raw number) or the raw number is zero (C42)."
  },
  {
   "property": "C145",
   "status": "partial",
   "theorems": [
    "Verif.MLE1.C145_error_partial",
    "Verif.MLE1.C145_equal_points",
    "Verif.MLE1.C145_no_weight",
    "Verif.MLE1.C145_rejected"
   ],
   "note": "The error bounds are proved; the estimator is valid if the points of positive weight are not all equal, but it can also be valid if they are all equal (C145_equal_points), and it is valid without finite mean and variance if all weights are zero (C145_no_weight). Overflow and underflow are not modelled."
  },
  {
   "property": "C146",
   "status": "partial",
   "theorems": [
    "Verif.MLEd.C146_weighted_partial",
    "Verif.MLEd.C146_streaming",
    "Verif.MLEd.C146_repetition",
    "Verif.MLEd.C146_defined",
    "Verif.MLEd.C146_degenerate"
   ],
   "note": "Exact arithmetic. False without any point (undefined behaviour) and for responsibilities that add up to zero (mean not finite): C146_degenerate. If the covariance is rejected the mean has been replaced all the same. That isPositive() of the LDLT decomposition decides positive semi-definiteness is a hypothesis."
  },
  {
   "property": "C147",
   "status": "partial",
   "theorems": [
    "Verif.GammaD.C147_chi_square_partial",
    "Verif.GammaD.C147_inverse_scale"
   ],
   "note": "False if setInvScale, inherited and public, is called: C147_inverse_scale. Proved for all histories of the other setters."
  },
  {
   "property": "C148",
   "status": "partial",
   "theorems": [
    "Verif.Dbl.C148_arrivals_partial",
    "Verif.Dbl.C148_mean_ignored"
   ],
   "note": "Proved for means up to 708. False for means of 746 or more: exp(-mean) is zero as a double, the sample does not depend on the mean and is less than the number of draws until 1075 of them are at most one half (C148_mean_ignored). Means between 708 and 746 (exp(-mean) subnormal) are covered only by the latter bound. That exp returns the nearest double is a hypothesis."
  },
  {
   "property": "C149",
   "status": "partial",
   "theorems": [
    "Verif.Dbl.C149_geometric_partial",
    "Verif.Dbl.C149_exponential",
    "Verif.Dbl.C149_small_probability"
   ],
   "note": "Proved for probabilities greater than 2^-54 (the survival function is that of the rounded probability of failure) and all rates. False for probabilities up to 2^-54: 1 - probability is one, the sample is minus infinity or NaN, converted to size_t (C149_small_probability). Overflow for tiny rates is not modelled."
  },
  {
   "property": "C150",
   "status": "partial",
   "theorems": [
    "Verif.C150_exists_partial",
    "Verif.C150_restore_partial",
    "Verif.C150_batches",
    "Verif.C150_dangling",
    "Verif.C150_estimator_partial",
    "Verif.C150_estimator_refused"
   ],
   "note": "Proved for the batches after any history, for the incremental problem after regular histories (no failed add, contained batches keep their variables) and for restoreDesignVariables in those without clear. False otherwise: three programs whose last call uses a destroyed variable (C150_dangling). For the estimator: whenever it returns and whenever it runs the optimizer in a regular history its problem points only to variables its own batches hold (C150_estimator_partial); a refused batch with a duplicate error term leaves a pointer that nothing in the problem keeps alive (C150_estimator_refused)."
  },
  {
   "property": "C151",
   "status": "proved",
   "theorems": [
    "Verif.C151_acceptance",
    "Verif.C151_telescope",
    "Verif.C151_rounded"
   ],
   "note": "Each operation rounded to the nearest double; no overflow, underflow or NaN. C151_rounded: the tolerances are needed."
  },
  {
   "property": "C152",
   "status": "partial",
   "theorems": [
    "Verif.Dbl.C152_rejected",
    "Verif.Dbl.C152_gamma_partial",
    "Verif.Dbl.C152_infinite"
   ],
   "note": "Proved for shapes below 2^49 and all draws for which a round of the rejection loop is accepted with a finite number. False otherwise: the largest raw number followed by a zero gives an infinite sample, shapes from 2^64 on are undefined behaviour (C152_infinite)."
  },
  {
   "property": "C153",
   "status": "partial",
   "theorems": [
    "Verif.C153_error_partial",
    "Verif.C153_powers_of_two",
    "Verif.C153_gain",
    "Verif.C153_order_matters"
   ],
   "note": "Errors, exactness and gains proved. The independence of the order of the columns is false: two orders of the same three entries have different sums with every accurate logarithm (C153_order_matters)."
  },
  {
   "property": "C154",
   "status": "partial",
   "theorems": [
    "Verif.Singleton.C154_one_partial",
    "Verif.Singleton.C154_threads_partial",
    "Verif.Singleton.C154_threads_any",
    "Verif.Singleton.C154_race"
   ],
   "note": "Proved for one thread after any history, and for any schedule of any number of threads if the object exists before they start. False for threads that race for the first call: two objects, or a refused call (C154_race); in every schedule calls still end, return objects that exist and fail only because one exists (C154_threads_any). The class's header is missing in the repository."
  },
  {
   "property": "C155",
   "status": "partial",
   "theorems": [
    "Verif.C155_decision_partial",
    "Verif.C155_egomotion_partial",
    "Verif.C155_time_delay_partial",
    "Verif.C155_car_partial",
    "Verif.C155_closes_partial",
    "Verif.C155_car_closes_partial",
    "Verif.C155_long_window"
   ],
   "note": "Proved for window durations up to 2^50 nanoseconds (13 days). False in general: a window of 97 days and two nanoseconds is closed a nanosecond early (C155_long_window)."
  },
  {
   "property": "C156",
   "status": "partial",
   "theorems": [
    "Verif.MLEdF.C156_error_partial",
    "Verif.MLEdF.C156_components",
    "Verif.MLEdF.C156_equal_points"
   ],
   "note": "Error bounds, exact symmetry, validity and agreement with the univariate estimator proved. Validity just if the sample covariance is positive definite is false in doubles: three equal points leave a valid estimator with a positive variance (C156_equal_points)."
  },
  {
   "property": "C157",
   "status": "proved",
   "theorems": [
    "Verif.Dbl.C157_round",
    "Verif.Dbl.C157_normal"
   ],
   "note": ""
  },
  {
   "property": "C158",
   "status": "partial",
   "theorems": [
    "Verif.Vision.C158_key_frame_partial",
    "Verif.Vision.C158_boundary"
   ],
   "note": "Proved if the median differs from the threshold by one part in 2^50. Next to the threshold it is false: a track that moved further than the threshold is computed as having moved just as far (C158_boundary)."
  },
  {
   "property": "C159",
   "status": "proved",
   "theorems": [
    "Verif.Dbl.C159_error",
    "Verif.Dbl.C159_increasing",
    "Verif.Dbl.C159_gamma"
   ],
   "note": ""
  },
  {
   "property": "C160",
   "status": "proved",
   "theorems": [
    "Verif.Dbl.C160_sample"
   ],
   "note": "The factor is an arbitrary matrix: Eigen's LLT is not modelled."
  },
  {
   "property": "C161",
   "status": "proved",
   "theorems": [
    "Verif.Dbl.C161_density",
    "Verif.Dbl.C161_unimodal"
   ],
   "note": ""
  },
  {
   "property": "C162",
   "status": "proved",
   "theorems": [
    "Verif.Dbl.C162_error",
    "Verif.Dbl.C162_order"
   ],
   "note": ""
  },
  {
   "property": "C163",
   "status": "partial",
   "theorems": [
    "Verif.Dbl.C163_error_partial",
    "Verif.Dbl.C163_negative"
   ],
   "note": "Error bound proved for all histories. Non-negativity is false in doubles: the divergence of the normal distribution with variance 49 from itself is negative, with every accurate logarithm (C163_negative)."
  }
 ]
}