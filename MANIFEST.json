{
 "claims": [
  {
   "property": "C01",
   "status": "proved",
   "theorems": [
    "Geo.C01_kernel_weight_in_unit_interval"
   ],
   "note": ""
  },
  {
   "property": "C02",
   "status": "proved",
   "theorems": [
    "Geo.C02_nearer_never_less_weight"
   ],
   "note": ""
  },
  {
   "property": "C03",
   "status": "proved",
   "theorems": [
    "Geo.C03_zero_distance_weight_one"
   ],
   "note": ""
  },
  {
   "property": "C04",
   "status": "proved",
   "theorems": [
    "Geo.C04_support"
   ],
   "note": ""
  },
  {
   "property": "C05",
   "status": "proved",
   "theorems": [
    "Geo.C05_monotone_in_bandwidth",
    "Geo.C05_unit_free"
   ],
   "note": ""
  },
  {
   "property": "C06",
   "status": "proved",
   "theorems": [
    "Geo.C06_lazy_eq_eager"
   ],
   "note": ""
  },
  {
   "property": "C07",
   "status": "proved",
   "theorems": [
    "Geo.C07_unknown_kernel_raises",
    "Geo.C07_unknown_kernel_rejected"
   ],
   "note": ""
  },
  {
   "property": "C08",
   "status": "proved",
   "theorems": [
    "Geo.C08_count_validated",
    "Geo.C08_kth_nearest",
    "Geo.C08_neighbour_counts"
   ],
   "note": ""
  },
  {
   "property": "C09",
   "status": "proved",
   "theorems": [
    "Geo.C09_between_min_and_max",
    "Geo.C09_fraction_one_is_max",
    "Geo.C09_fraction_validated",
    "Geo.C09_median_unbiased_value",
    "Geo.C09_monotone_in_fraction",
    "Geo.C09_order_irrelevant",
    "Geo.C09_selected_count"
   ],
   "note": ""
  },
  {
   "property": "C10",
   "status": "proved",
   "theorems": [
    "Geo.C10_lazy_accepts_zero",
    "Geo.C10_lazy_eq_eager",
    "Geo.C10_lazy_fraction",
    "Geo.C10_lazy_fraction_differs",
    "Geo.C10_lazy_rejects_wide",
    "Geo.C10_unsorted_counts",
    "Geo.C10_unsorted_fraction"
   ],
   "note": ""
  },
  {
   "property": "C11",
   "status": "proved",
   "theorems": [
    "Geo.C11_rows_normalised"
   ],
   "note": ""
  },
  {
   "property": "C12",
   "status": "proved",
   "theorems": [
    "Geo.C12_neighbour_in_every_dimension"
   ],
   "note": ""
  },
  {
   "property": "C13",
   "status": "proved",
   "theorems": [
    "Geo.C13_proportions_kept"
   ],
   "note": ""
  },
  {
   "property": "C14",
   "status": "proved",
   "theorems": [
    "Geo.C14_self_is_heaviest"
   ],
   "note": ""
  },
  {
   "property": "C15",
   "status": "proved",
   "theorems": [
    "Geo.C15_accepted_iff",
    "Geo.C15_both_raises",
    "Geo.C15_each_dimension_one",
    "Geo.C15_neither_raises"
   ],
   "note": "Exact acceptance condition of the eager path; the README's precedence rule is refuted for all inputs (C15_both_raises)."
  },
  {
   "property": "C16",
   "status": "proved",
   "theorems": [
    "Geo.C16_distance_ratio_always_raises",
    "Geo.C16_distance_ratio_index_error"
   ],
   "note": "Property is false of the code: proved that every call with distance_ratio raises."
  },
  {
   "property": "C17",
   "status": "proved",
   "theorems": [
    "Geo.C17_target_points",
    "Geo.C17_target_relabelling",
    "Geo.C18_row_independence"
   ],
   "note": "Columns on both paths; rows (eager) by C18_row_independence."
  },
  {
   "property": "C18",
   "status": "proved",
   "theorems": [
    "Geo.C18_lazy_depends_on_other_rows",
    "Geo.C18_row_independence",
    "Geo.C18_source_points"
   ],
   "note": "Eager path for all inputs; on the dask path with sorted distances the property fails (C18_lazy_depends_on_other_rows)."
  },
  {
   "property": "C19",
   "status": "proved",
   "theorems": [
    "Geo.C19_omitted_targets_always_raise"
   ],
   "note": "Property is false of the code: proved that every call without targets raises."
  },
  {
   "property": "C20",
   "status": "proved",
   "theorems": [
    "Geo.C20_backend",
    "Geo.C20_distance_args_never_reach_metric",
    "Geo.C20_lists",
    "Geo.C20_only_emptiness_matters"
   ],
   "note": "Property is false of the code: proved that distance_args never reaches the metric, for all inputs."
  },
  {
   "property": "C21",
   "status": "proved",
   "theorems": [
    "Geo.C21_antipodal",
    "Geo.C21_bounds",
    "Geo.C21_full_turn",
    "Geo.C21_haversine_argument_valid",
    "Geo.C21_is_central_angle",
    "Geo.C21_meridian",
    "Geo.C21_rotation",
    "Geo.C21_self",
    "Geo.C21_symmetric",
    "Geo.C21_triangle",
    "Geo.C21_zero_iff"
   ],
   "note": ""
  },
  {
   "property": "C22",
   "status": "proved",
   "theorems": [
    "Geo.C22_validation"
   ],
   "note": ""
  },
  {
   "property": "C23",
   "status": "proved",
   "theorems": [
    "Geo.C23_second_order_api",
    "Geo.C23_second_order_dense"
   ],
   "note": ""
  },
  {
   "property": "C24",
   "status": "proved",
   "theorems": [
    "Geo.C24_shape_can_shrink",
    "Geo.C24_sparse_eq_dense"
   ],
   "note": ""
  },
  {
   "property": "C25",
   "status": "proved",
   "theorems": [
    "Geo.C25_complete_schedule_exists",
    "Geo.C25_second_order_dense",
    "Geo.C25_second_order_sparse",
    "Geo.C25_shrink_dense",
    "Geo.C25_shrink_sparse",
    "Geo.C25_stacking_fit",
    "Geo.C25_stacking_loop"
   ],
   "note": ""
  },
  {
   "property": "C26",
   "status": "proved",
   "theorems": [
    "Geo.C26_largest_survives",
    "Geo.C26_rate_rejected",
    "Geo.C26_row_not_emptied",
    "Geo.C26_shrink_dense"
   ],
   "note": ""
  },
  {
   "property": "C27",
   "status": "proved",
   "theorems": [
    "Geo.C27_monotone",
    "Geo.C27_rate_one",
    "Geo.C27_rate_zero",
    "Geo.C27_survivor_count",
    "Geo.C27_survivor_count_distinct"
   ],
   "note": ""
  },
  {
   "property": "C28",
   "status": "proved",
   "theorems": [
    "Geo.C28_sparse_eq_dense",
    "Geo.C28_stored_zeros_matter"
   ],
   "note": ""
  },
  {
   "property": "C29",
   "status": "proved",
   "theorems": [
    "Geo.C29_caller_array",
    "Geo.C29_caller_array_sparse"
   ],
   "note": ""
  },
  {
   "property": "C30",
   "status": "proved",
   "theorems": [
    "Geo.C30_sample_dense"
   ],
   "note": ""
  },
  {
   "property": "C31",
   "status": "proved",
   "theorems": [
    "Geo.C31_generator_reset",
    "Geo.C31_history_independent",
    "Geo.C31_history_independent_sparse",
    "Geo.C31_repeat"
   ],
   "note": ""
  },
  {
   "property": "C32",
   "status": "proved",
   "theorems": [
    "Geo.C32_sparse_canonical",
    "Geo.C32_sparse_eq_dense"
   ],
   "note": ""
  },
  {
   "property": "C33",
   "status": "proved",
   "theorems": [
    "Geo.C33_ridge_minimiser",
    "Geo.C33_unpenalised_constant_feature_raises"
   ],
   "note": ""
  },
  {
   "property": "C34",
   "status": "proved",
   "theorems": [
    "Geo.C34_scale_targets",
    "Geo.C34_scale_weights",
    "Geo.C34_shift_features",
    "Geo.C34_shift_targets",
    "Geo.C34_zero_weight_irrelevant"
   ],
   "note": ""
  },
  {
   "property": "C35",
   "status": "proved",
   "theorems": [
    "Geo.C35_agrees_with_sklearn_iff",
    "Geo.C35_at_most_one",
    "Geo.C35_constant_targets",
    "Geo.C35_mean_scores_zero",
    "Geo.C35_one_iff_exact"
   ],
   "note": ""
  },
  {
   "property": "C36",
   "status": "proved",
   "theorems": [
    "Geo.C36_leave_local_out",
    "Geo.C36_sampled_jobs_leak"
   ],
   "note": "Holds unless sample_local_rate and n_jobs > 1 are combined, for which a leak is exhibited (C36_sampled_jobs_leak)."
  },
  {
   "property": "C37",
   "status": "proved",
   "theorems": [
    "Geo.C37_locality"
   ],
   "note": ""
  },
  {
   "property": "C38",
   "status": "proved",
   "theorems": [
    "Geo.C38_batches",
    "Geo.C38_default_batches",
    "Geo.C38_kth_location",
    "Geo.C38_no_batches"
   ],
   "note": ""
  },
  {
   "property": "C39",
   "status": "proved",
   "theorems": [
    "Geo.C39_jobs_eq_batches",
    "Geo.C39_sampled_jobs_differ",
    "Geo.C39_sampled_jobs_first_locations"
   ],
   "note": "Equality holds without sampling; with sampling the n_jobs path evaluates the first locations, proved in general with a differing witness."
  },
  {
   "property": "C40",
   "status": "proved",
   "theorems": [
    "Geo.C40_sparse_eq_dense",
    "Geo.C40_stored_zero_rejected"
   ],
   "note": ""
  },
  {
   "property": "C41",
   "status": "proved",
   "theorems": [
    "Geo.C41_overwritten",
    "Geo.C41_second_model",
    "Geo.C41_unchanged"
   ],
   "note": "The code overwrites the caller's diagonal when leave_local_out is set; exact condition proved."
  },
  {
   "property": "C42",
   "status": "proved",
   "theorems": [
    "Geo.C42_claims_fitted",
    "Geo.C42_mixed_state",
    "Geo.C42_refused_data"
   ],
   "note": "A failed fit leaves is_fitted_ set; proved what the object holds after each failure."
  },
  {
   "property": "C43",
   "status": "proved",
   "theorems": [
    "Geo.C43_between",
    "Geo.C43_common_value",
    "Geo.C43_weighted_sum"
   ],
   "note": ""
  },
  {
   "property": "C44",
   "status": "proved",
   "theorems": [
    "Geo.C44_predict_by_fit_batch_dependent",
    "Geo.C44_predict_by_fit_given_weights",
    "Geo.C44_predict_by_fit_single_point",
    "Geo.C44_predict_by_weight"
   ],
   "note": "Holds for predict_by_weight and for predict_by_fit with given weights or a single point; batch dependence of predict_by_fit proved by witness."
  },
  {
   "property": "C45",
   "status": "proved",
   "theorems": [
    "Geo.C45_caches_required",
    "Geo.C45_coordinates_ignored",
    "Geo.C45_nothing_given",
    "Geo.C45_weights_only_rejected"
   ],
   "note": "The guards of the two prediction methods are stated as they act in the code."
  },
  {
   "property": "C46",
   "status": "proved",
   "theorems": [
    "Geo.C46_mean_over_history",
    "Geo.C46_other_feature_count"
   ],
   "note": ""
  },
  {
   "property": "C47",
   "status": "proved",
   "theorems": [
    "Geo.C47_one_feature_permuted"
   ],
   "note": ""
  },
  {
   "property": "C48",
   "status": "proved",
   "theorems": [
    "Geo.C48_mixed_pairs",
    "Geo.C48_raises",
    "Geo.C48_uninitialised"
   ],
   "note": "The documented behaviour does not hold; the statement says what the code does."
  },
  {
   "property": "C49",
   "status": "proved",
   "theorems": [
    "Geo.C49_own_target_unused"
   ],
   "note": ""
  },
  {
   "property": "C50",
   "status": "proved",
   "theorems": [
    "Geo.C50_genuine_predictions"
   ],
   "note": ""
  },
  {
   "property": "C51",
   "status": "proved",
   "theorems": [
    "Geo.C51_own_weight_needed",
    "Geo.C51_stored_estimators_reproduce"
   ],
   "note": ""
  },
  {
   "property": "C52",
   "status": "proved",
   "theorems": [
    "Geo.C52_numba_changes_nothing",
    "Geo.C52_ridge_numba_changes_nothing",
    "Geo.C52_ridge_solvers",
    "Geo.C52_sparse_dense_numba_agree"
   ],
   "note": ""
  },
  {
   "property": "C53",
   "status": "proved",
   "theorems": [
    "Geo.C53_default_always_fails"
   ],
   "note": ""
  },
  {
   "property": "C54",
   "status": "proved",
   "theorems": [
    "Geo.C54_agree_without_shrinking",
    "Geo.C54_disagree_after_shrinking",
    "Geo.C54_recorded_matrices"
   ],
   "note": ""
  },
  {
   "property": "C55",
   "status": "proved",
   "theorems": [
    "Geo.C55_dense_uses_only_base_zero",
    "Geo.C55_own_target_leaks",
    "Geo.C55_sparse_ignores_rate"
   ],
   "note": ""
  },
  {
   "property": "C56",
   "status": "proved",
   "theorems": [
    "Geo.C56_numba_fails",
    "Geo.C56_predictions",
    "Geo.C56_replaces_fitted_model",
    "Geo.C56_uncovered_training_point"
   ],
   "note": ""
  },
  {
   "property": "C57",
   "status": "proved",
   "theorems": [
    "Geo.C57_loop",
    "Geo.C57_monotone",
    "Geo.C57_result",
    "Geo.C57_terminates"
   ],
   "note": ""
  },
  {
   "property": "C58",
   "status": "proved",
   "theorems": [
    "Geo.C58_adaptive_grid",
    "Geo.C58_one_or_two_values",
    "Geo.C58_too_few_values"
   ],
   "note": ""
  },
  {
   "property": "C59",
   "status": "proved",
   "theorems": [
    "Geo.C59_bins_partition",
    "Geo.C59_one_value_per_grid_point"
   ],
   "note": ""
  },
  {
   "property": "C60",
   "status": "proved",
   "theorems": [
    "Geo.C60_additive",
    "Geo.C60_global_additive",
    "Geo.C60_ignored_feature",
    "Geo.C60_start",
    "Geo.C60_steps"
   ],
   "note": ""
  },
  {
   "property": "C61",
   "status": "proved",
   "theorems": [
    "Geo.C61_centred",
    "Geo.C61_global_centred",
    "Geo.C61_normalise_shifts"
   ],
   "note": ""
  },
  {
   "property": "C62",
   "status": "proved",
   "theorems": [
    "Geo.C62_degenerate",
    "Geo.C62_global",
    "Geo.C62_missing_column",
    "Geo.C62_succeeds",
    "Geo.C62_too_few"
   ],
   "note": ""
  },
  {
   "property": "C63",
   "status": "proved",
   "theorems": [
    "Geo.C63_affine",
    "Geo.C63_expectation",
    "Geo.C63_relabel",
    "Geo.C63_scale_weights",
    "Geo.C63_undefined",
    "Geo.C63_value"
   ],
   "note": ""
  },
  {
   "property": "C64",
   "status": "proved",
   "theorems": [
    "Geo.C64_empty",
    "Geo.C64_permutation_variance",
    "Geo.C64_same_statistic",
    "Geo.C64_variances",
    "Geo.C64_variances_differ"
   ],
   "note": ""
  },
  {
   "property": "C65",
   "status": "proved",
   "theorems": [
    "Geo.C65_sum",
    "Geo.C65_undefined"
   ],
   "note": ""
  },
  {
   "property": "C66",
   "status": "proved",
   "theorems": [
    "Geo.C66_columns",
    "Geo.C66_equal_row_sums",
    "Geo.C66_not_row_standardised",
    "Geo.C66_symmetric"
   ],
   "note": ""
  },
  {
   "property": "C67",
   "status": "proved",
   "theorems": [
    "Geo.C67_additive",
    "Geo.C67_bounds",
    "Geo.C67_rejects",
    "Geo.C67_same_function",
    "Geo.C67_scale_weights",
    "Geo.C67_value",
    "Geo.C67_zero_weights"
   ],
   "note": ""
  },
  {
   "property": "C68",
   "status": "proved",
   "theorems": [
    "Geo.C68_diagonal",
    "Geo.C68_features",
    "Geo.C68_no_overlap",
    "Geo.C68_overlap",
    "Geo.C68_reorder",
    "Geo.C68_scale",
    "Geo.C68_shift",
    "Geo.C68_succeeds",
    "Geo.C68_symmetric"
   ],
   "note": ""
  },
  {
   "property": "C69",
   "status": "proved",
   "theorems": [
    "Geo.C69_clusters",
    "Geo.C69_one_method",
    "Geo.C69_plain",
    "Geo.C69_quantiles",
    "Geo.C69_reproducible",
    "Geo.C69_total"
   ],
   "note": ""
  },
  {
   "property": "C70",
   "status": "proved",
   "theorems": [
    "Geo.C70_medoids"
   ],
   "note": ""
  },
  {
   "property": "C71",
   "status": "proved",
   "theorems": [
    "Geo.C71_byte",
    "Geo.C71_constant",
    "Geo.C71_normed",
    "Geo.C71_range",
    "Geo.C71_range_limits",
    "Geo.C71_range_missing",
    "Geo.C71_units"
   ],
   "note": ""
  },
  {
   "property": "C72",
   "status": "proved",
   "theorems": [
    "Geo.C72_directional",
    "Geo.C72_directional_nan",
    "Geo.C72_gaussian",
    "Geo.C72_gaussian_lower",
    "Geo.C72_gaussian_refused",
    "Geo.C72_gaussian_refused_full",
    "Geo.C72_gaussian_scalar",
    "Geo.C72_radial",
    "Geo.C72_sine"
   ],
   "note": ""
  },
  {
   "property": "C73",
   "status": "proved",
   "theorems": [
    "Geo.C73_kernel_formulas"
   ],
   "note": ""
  },
  {
   "property": "C74",
   "status": "proved",
   "theorems": [
    "Geo.C74_existing_store_returned_for_any_points",
    "Geo.C74_overwrite",
    "Geo.C74_store_round_trip"
   ],
   "note": ""
  },
  {
   "property": "C75",
   "status": "proved",
   "theorems": [
    "Geo.C75_not_after_sampled_fit"
   ],
   "note": ""
  },
  {
   "property": "C76",
   "status": "proved",
   "theorems": [
    "Geo.C76_locations",
    "Geo.C76_neighbour_matrix",
    "Geo.C76_score"
   ],
   "note": ""
  },
  {
   "property": "C77",
   "status": "proved",
   "theorems": [
    "Geo.C77_few_neighbours",
    "Geo.C77_local",
    "Geo.C77_local_curves"
   ],
   "note": ""
  },
  {
   "property": "C78",
   "status": "proved",
   "theorems": [
    "Geo.C78_continuous_data_fail",
    "Geo.C78_equal_lengths_fail",
    "Geo.C78_failure_keeps",
    "Geo.C78_result"
   ],
   "note": ""
  },
  {
   "property": "C79",
   "status": "proved",
   "theorems": [
    "Geo.C79_own_distances",
    "Geo.C79_shared_store"
   ],
   "note": ""
  },
  {
   "property": "C80",
   "status": "proved",
   "theorems": [
    "Geo.C80_several",
    "Geo.C80_single"
   ],
   "note": ""
  },
  {
   "property": "C81",
   "status": "proved",
   "theorems": [
    "Geo.C81_polynomials",
    "Geo.C81_relu_exponential",
    "Geo.C81_sigmoid"
   ],
   "note": ""
  },
  {
   "property": "C82",
   "status": "proved",
   "theorems": [
    "Geo.C82_dimensions",
    "Geo.C82_pair_as_list",
    "Geo.C82_points"
   ],
   "note": ""
  },
  {
   "property": "C83",
   "status": "proved",
   "theorems": [
    "Geo.C83_bounds_overwritten",
    "Geo.C83_exponential",
    "Geo.C83_uniform",
    "Geo.C83_variance_is_sd"
   ],
   "note": ""
  },
  {
   "property": "C84",
   "status": "proved",
   "theorems": [
    "Geo.C84_local",
    "Geo.C84_nonneg",
    "Geo.C84_refused",
    "Geo.C84_succeeds",
    "Geo.C84_unused",
    "Geo.C84_value"
   ],
   "note": ""
  },
  {
   "property": "C85",
   "status": "proved",
   "theorems": [
    "Geo.C85_exact_values",
    "Geo.C85_ieee",
    "Geo.C85_lazy_eq_eager",
    "Geo.C85_monotone",
    "Geo.C85_support_can_shrink",
    "Geo.C85_unit_interval"
   ],
   "note": ""
  },
  {
   "property": "C86",
   "status": "proved",
   "theorems": [
    "Geo.C86_double_sum",
    "Geo.C86_row",
    "Geo.C86_row_sum"
   ],
   "note": ""
  },
  {
   "property": "C87",
   "status": "proved",
   "theorems": [
    "Geo.C87_attributes",
    "Geo.C87_no_coordinates"
   ],
   "note": ""
  },
  {
   "property": "C88",
   "status": "proved",
   "theorems": [
    "Geo.C88_sampling_never_fits",
    "Geo.C88_sampling_outcome"
   ],
   "note": ""
  },
  {
   "property": "C89",
   "status": "proved",
   "theorems": [
    "Geo.C89_target_units"
   ],
   "note": ""
  },
  {
   "property": "C90",
   "status": "proved",
   "theorems": [
    "Geo.C90_penalty_has_a_unit",
    "Geo.C90_ridge_units",
    "Geo.C90_stacking_units"
   ],
   "note": ""
  },
  {
   "property": "C91",
   "status": "proved",
   "theorems": [
    "Geo.C91_constant_target"
   ],
   "note": ""
  },
  {
   "property": "C92",
   "status": "proved",
   "theorems": [
    "Geo.C92_points",
    "Geo.C92_row_order"
   ],
   "note": ""
  },
  {
   "property": "C93",
   "status": "proved",
   "theorems": [
    "Geo.C93_dimension_units",
    "Geo.C93_neighbour_count"
   ],
   "note": ""
  },
  {
   "property": "C94",
   "status": "proved",
   "theorems": [
    "Geo.C94_fit",
    "Geo.C94_predict",
    "Geo.C94_similarity"
   ],
   "note": ""
  },
  {
   "property": "C95",
   "status": "proved",
   "theorems": [
    "Geo.C95_adaptive_bandwidth",
    "Geo.C95_adaptive_kernel",
    "Geo.C95_adaptive_weight_matrix",
    "Geo.C95_boxcar_jumps",
    "Geo.C95_kernel_continuous",
    "Geo.C95_weight_matrix"
   ],
   "note": ""
  },
  {
   "property": "C96",
   "status": "proved",
   "theorems": [
    "Geo.C96_exact_fit",
    "Geo.C96_own_weight",
    "Geo.C96_predict_by_fit",
    "Geo.C96_predict_by_weight"
   ],
   "note": ""
  },
  {
   "property": "C97",
   "status": "proved",
   "theorems": [
    "Geo.C97_equal_weights",
    "Geo.C97_global_model",
    "Geo.C97_leave_one_out",
    "Geo.C97_leave_one_out_csr",
    "Geo.C97_predict_by_fit",
    "Geo.C97_predict_by_weight"
   ],
   "note": ""
  },
  {
   "property": "C98",
   "status": "proved",
   "theorems": [
    "Geo.C98_bars",
    "Geo.C98_enough_labels",
    "Geo.C98_own_bar",
    "Geo.C98_shared_bar"
   ],
   "note": ""
  },
  {
   "property": "C99",
   "status": "proved",
   "theorems": [
    "Geo.C99_cluster_traces",
    "Geo.C99_continuous",
    "Geo.C99_embedding",
    "Geo.C99_hover_index",
    "Geo.C99_hover_right_iff"
   ],
   "note": ""
  },
  {
   "property": "C100",
   "status": "proved",
   "theorems": [
    "Geo.C100_aspect",
    "Geo.C100_degenerate",
    "Geo.C100_ranges",
    "Geo.C100_surfaces"
   ],
   "note": ""
  },
  {
   "property": "C101",
   "status": "proved",
   "theorems": [
    "Geo.C101_lines",
    "Geo.C101_per_feature",
    "Geo.C101_ranges",
    "Geo.C101_same_rows"
   ],
   "note": ""
  },
  {
   "property": "C102",
   "status": "proved",
   "theorems": [
    "Geo.C102_style",
    "Geo.C102_style_strict"
   ],
   "note": ""
  },
  {
   "property": "C103",
   "status": "proved",
   "theorems": [
    "Geo.C103_aspect_scale",
    "Geo.C103_camera"
   ],
   "note": ""
  },
  {
   "property": "C104",
   "status": "proved",
   "theorems": [
    "Geo.C104_features_alone"
   ],
   "note": ""
  },
  {
   "property": "C105",
   "status": "proved",
   "theorems": [
    "Geo.C105_same_sources",
    "Geo.C105_same_targets"
   ],
   "note": ""
  },
  {
   "property": "C106",
   "status": "proved",
   "theorems": [
    "Geo.C106_casts_are_a_library",
    "Geo.C106_exact",
    "Geo.C106_indistinguishable",
    "Geo.C106_only_single_precision_matters",
    "Geo.C106_order",
    "Geo.C106_resolution",
    "Geo.C106_timestamps",
    "Geo.C106_translation"
   ],
   "note": ""
  },
  {
   "property": "C107",
   "status": "proved",
   "theorems": [
    "Geo.C107_differs",
    "Geo.C107_fitted_weights_reproduce",
    "Geo.C107_not_left_out_again",
    "Geo.C107_symmetric",
    "Geo.C107_transposed"
   ],
   "note": ""
  },
  {
   "property": "C108",
   "status": "proved",
   "theorems": [
    "Geo.C108_local_models",
    "Geo.C108_predictions",
    "Geo.C108_weights"
   ],
   "note": ""
  },
  {
   "property": "C109",
   "status": "proved",
   "theorems": [
    "Geo.C109_constant",
    "Geo.C109_diagram",
    "Geo.C109_equal_row_sums",
    "Geo.C109_other_weights",
    "Geo.C109_quadrants",
    "Geo.C109_refused"
   ],
   "note": ""
  },
  {
   "property": "C110",
   "status": "proved",
   "theorems": [
    "Geo.C110_one_feature",
    "Geo.C110_square_strong"
   ],
   "note": ""
  },
  {
   "property": "C111",
   "status": "proved",
   "theorems": [
    "Geo.C111_builds",
    "Geo.C111_draws",
    "Geo.C111_lower_end"
   ],
   "note": ""
  },
  {
   "property": "C112",
   "status": "proved",
   "theorems": [
    "Geo.C112_default",
    "Geo.C112_list_refused",
    "Geo.C112_plain",
    "Geo.C112_three_calls"
   ],
   "note": ""
  },
  {
   "property": "C113",
   "status": "proved",
   "theorems": [
    "Geo.C113_stacking_offset",
    "Geo.C113_weight_model_zero"
   ],
   "note": ""
  },
  {
   "property": "C114",
   "status": "proved",
   "theorems": [
    "Geo.C114_two_steps"
   ],
   "note": ""
  },
  {
   "property": "C115",
   "status": "proved",
   "theorems": [
    "Geo.C115_local_predictions",
    "Geo.C115_predict_by_fit",
    "Geo.C115_predict_by_weight",
    "Geo.C115_residuals",
    "Geo.C115_ridge_extrapolates",
    "Geo.C115_stacking"
   ],
   "note": ""
  },
  {
   "property": "C116",
   "status": "proved",
   "theorems": [
    "Geo.C116_refit",
    "Geo.C116_stacking"
   ],
   "note": ""
  },
  {
   "property": "C117",
   "status": "proved",
   "theorems": [
    "Geo.C117_affine",
    "Geo.C117_feature_units",
    "Geo.C117_global_units",
    "Geo.C117_interaction",
    "Geo.C117_interaction_line",
    "Geo.C117_local_units",
    "Geo.C117_monotone",
    "Geo.C117_simulation",
    "Geo.C117_slope",
    "Geo.C117_superposition",
    "Geo.C117_target_units",
    "Geo.C117_weight_scale"
   ],
   "note": ""
  },
  {
   "property": "C118",
   "status": "proved",
   "theorems": [
    "Geo.C118_fit",
    "Geo.C118_global_ale",
    "Geo.C118_importance",
    "Geo.C118_importance_local",
    "Geo.C118_interaction",
    "Geo.C118_local_ale",
    "Geo.C118_new_object",
    "Geo.C118_partial_dependence",
    "Geo.C118_predict_by_fit",
    "Geo.C118_predict_by_weight",
    "Geo.C118_stacking_fit",
    "Geo.C118_stacking_predict"
   ],
   "note": ""
  },
  {
   "property": "C119",
   "status": "proved",
   "theorems": [
    "Geo.C119_colours_agree",
    "Geo.C119_colours_differ",
    "Geo.C119_map_and_embedding",
    "Geo.C119_panels",
    "Geo.C119_sampled"
   ],
   "note": ""
  },
  {
   "property": "C120",
   "status": "proved",
   "theorems": [
    "Geo.C120_again",
    "Geo.C120_fit",
    "Geo.C120_predict",
    "Geo.C120_stacking",
    "Geo.C120_stacking_again",
    "Geo.C120_stacking_not_again"
   ],
   "note": ""
  },
  {
   "property": "C121",
   "status": "proved",
   "theorems": [
    "Geo.C121_after_stacking",
    "Geo.C121_stacking",
    "Geo.C121_still_fit",
    "Geo.C121_still_stacking",
    "Geo.C121_weight_model"
   ],
   "note": ""
  },
  {
   "property": "C122",
   "status": "proved",
   "theorems": [
    "Geo.C122_best",
    "Geo.C122_best_nan",
    "Geo.C122_comparison_fails",
    "Geo.C122_data_size",
    "Geo.C122_files",
    "Geo.C122_grid",
    "Geo.C122_grid_rates",
    "Geo.C122_info_wins",
    "Geo.C122_search",
    "Geo.C122_statistics",
    "Geo.C122_trial",
    "Geo.C122_variation",
    "Geo.C122_variation_fails",
    "Geo.C122_variation_still"
   ],
   "note": ""
  },
  {
   "property": "C123",
   "status": "proved",
   "theorems": [
    "Geo.C123_condensed",
    "Geo.C123_sorted"
   ],
   "note": ""
  },
  {
   "property": "C124",
   "status": "proved",
   "theorems": [
    "Geo.C124_score",
    "Geo.C124_too_few",
    "Geo.C124_weight_model",
    "Geo.C124_weight_model_csr"
   ],
   "note": ""
  },
  {
   "property": "C125",
   "status": "proved",
   "theorems": [
    "Geo.C125_boosted",
    "Geo.C125_local",
    "Geo.C125_plain",
    "Geo.C125_record",
    "Geo.C125_scores",
    "Geo.C125_stacking",
    "Geo.C125_uncovered"
   ],
   "note": ""
  },
  {
   "property": "C126",
   "status": "proved",
   "theorems": [
    "Geo.C126_ale",
    "Geo.C126_ale_additive",
    "Geo.C126_ale_linear",
    "Geo.C126_ale_whole",
    "Geo.C126_global",
    "Geo.C126_local",
    "Geo.C126_pd",
    "Geo.C126_pd_few"
   ],
   "note": ""
  },
  {
   "property": "C127",
   "status": "proved",
   "theorems": [
    "Geo.C127_concentrated",
    "Geo.C127_curve",
    "Geo.C127_few",
    "Geo.C127_superposition",
    "Geo.C127_wide"
   ],
   "note": ""
  },
  {
   "property": "C128",
   "status": "proved",
   "theorems": [
    "Geo.C128_error",
    "Geo.C128_nonneg",
    "Geo.C128_range",
    "Geo.C128_zero_row"
   ],
   "note": ""
  },
  {
   "property": "C129",
   "status": "proved",
   "theorems": [
    "Geo.C129_boxcar",
    "Geo.C129_lower_tail",
    "Geo.C129_nan",
    "Geo.C129_no_self",
    "Geo.C129_uniform"
   ],
   "note": ""
  },
  {
   "property": "C130",
   "status": "proved",
   "theorems": [
    "Geo.C130_additive",
    "Geo.C130_failures",
    "Geo.C130_own_point",
    "Geo.C130_raises",
    "Geo.C130_result"
   ],
   "note": ""
  },
  {
   "property": "C131",
   "status": "proved",
   "theorems": [
    "Geo.C131_bin",
    "Geo.C131_figure"
   ],
   "note": ""
  },
  {
   "property": "C132",
   "status": "proved",
   "theorems": [
    "Geo.C132_global_methods_agree",
    "Geo.C132_local_methods_raise"
   ],
   "note": ""
  },
  {
   "property": "C133",
   "status": "proved",
   "theorems": [
    "Geo.C133_local_ale_rows",
    "Geo.C133_refused"
   ],
   "note": ""
  },
  {
   "property": "C134",
   "status": "proved",
   "theorems": [
    "Geo.C134_no_parameters",
    "Geo.C134_no_score",
    "Geo.C134_stacked_fit"
   ],
   "note": ""
  },
  {
   "property": "C135",
   "status": "proved",
   "theorems": [
    "Geo.C135_local_estimator_required",
    "Geo.C135_midpoint",
    "Geo.C135_positional_shift",
    "Geo.C135_stacking_defaults",
    "Geo.C135_stacking_extra_positional",
    "Geo.C135_stacking_parameters",
    "Geo.C135_stacking_unknown_keyword",
    "Geo.C135_unknown_keyword",
    "Geo.C135_weight_model_defaults",
    "Geo.C135_weight_model_parameters"
   ],
   "note": ""
  },
  {
   "property": "C136",
   "status": "proved",
   "theorems": [
    "Geo.C136_given_weights_unrecorded",
    "Geo.C136_local_ale_coordinates",
    "Geo.C136_local_ale_stale",
    "Geo.C136_partial_dependence_raises"
   ],
   "note": ""
  },
  {
   "property": "C137",
   "status": "proved",
   "theorems": [
    "Geo.C137_large_penalty",
    "Geo.C137_near_local_mean",
    "Geo.C137_penalty_shrinks",
    "Geo.C137_stacking_shrinks"
   ],
   "note": ""
  },
  {
   "property": "C138",
   "status": "proved",
   "theorems": [
    "Geo.C138_dense_fit",
    "Geo.C138_last_location",
    "Geo.C138_sparse_fit"
   ],
   "note": ""
  },
  {
   "property": "C139",
   "status": "proved",
   "theorems": [
    "Geo.C139_fit",
    "Geo.C139_sparse_fit"
   ],
   "note": ""
  },
  {
   "property": "C140",
   "status": "proved",
   "theorems": [
    "Geo.C140_fraction_size",
    "Geo.C140_small_fraction",
    "Geo.C140_tied_neighbours",
    "Geo.C140_training_size",
    "Geo.C140_two_neighbours"
   ],
   "note": ""
  },
  {
   "property": "C141",
   "status": "proved",
   "theorems": [
    "Geo.C141_balance",
    "Geo.C141_count_not_mutual",
    "Geo.C141_fit"
   ],
   "note": ""
  },
  {
   "property": "C142",
   "status": "proved",
   "theorems": [
    "Geo.C142_fit",
    "Geo.C142_narrow",
    "Geo.C142_nested",
    "Geo.C142_wide",
    "Geo.C142_wide_limit"
   ],
   "note": ""
  },
  {
   "property": "C143",
   "status": "proved",
   "theorems": [
    "Geo.C143_hat_matrix",
    "Geo.C143_hat_matrix_csr",
    "Geo.C143_least_squares",
    "Geo.C143_predict_by_fit",
    "Geo.C143_predict_by_weight",
    "Geo.C143_superposition",
    "Geo.C143_superposition_csr"
   ],
   "note": ""
  },
  {
   "property": "C144",
   "status": "proved",
   "theorems": [
    "Geo.C144_alone",
    "Geo.C144_fit",
    "Geo.C144_weights"
   ],
   "note": ""
  },
  {
   "property": "C145",
   "status": "proved",
   "theorems": [
    "Geo.C145_score",
    "Geo.C145_twin",
    "Geo.C145_twin_weight"
   ],
   "note": ""
  },
  {
   "property": "C146",
   "status": "proved",
   "theorems": [
    "Geo.C146_by_row_fails",
    "Geo.C146_by_row_one_feature",
    "Geo.C146_by_row_one_location",
    "Geo.C146_by_row_out_of_range",
    "Geo.C146_by_row_square",
    "Geo.C146_whole",
    "Geo.C146_whole_nan"
   ],
   "note": ""
  },
  {
   "property": "C147",
   "status": "proved",
   "theorems": [
    "Geo.C147_global_ALE",
    "Geo.C147_local_ALE",
    "Geo.C147_partial_dependence",
    "Geo.C147_pd_curve",
    "Geo.C147_weighted_ale"
   ],
   "note": ""
  },
  {
   "property": "C148",
   "status": "proved",
   "theorems": [
    "Geo.C148_add",
    "Geo.C148_constant",
    "Geo.C148_coordinates",
    "Geo.C148_drop",
    "Geo.C148_order",
    "Geo.C148_scalar",
    "Geo.C148_split",
    "Geo.C148_twice"
   ],
   "note": ""
  },
  {
   "property": "C149",
   "status": "proved",
   "theorems": [
    "Geo.C149_count_lowered",
    "Geo.C149_given_weights",
    "Geo.C149_leave_one_out",
    "Geo.C149_not_by_coordinates",
    "Geo.C149_weights"
   ],
   "note": ""
  },
  {
   "property": "C150",
   "status": "proved",
   "theorems": [
    "Geo.C150_fit",
    "Geo.C150_measure",
    "Geo.C150_ranks"
   ],
   "note": ""
  },
  {
   "property": "C151",
   "status": "proved",
   "theorems": [
    "Geo.C151_alternatives",
    "Geo.C151_predict",
    "Geo.C151_predict_fresh",
    "Geo.C151_runs",
    "Geo.C151_scores",
    "Geo.C151_stacking",
    "Geo.C151_stale_curves",
    "Geo.C151_stale_points"
   ],
   "note": ""
  },
  {
   "property": "C152",
   "status": "proved",
   "theorems": [
    "Geo.C152_bandwidth",
    "Geo.C152_bandwidth_metric",
    "Geo.C152_boxcar",
    "Geo.C152_metric",
    "Geo.C152_prediction",
    "Geo.C152_weights"
   ],
   "note": ""
  },
  {
   "property": "C153",
   "status": "proved",
   "theorems": [
    "Geo.C153_bandwidth",
    "Geo.C153_fit",
    "Geo.C153_fraction",
    "Geo.C153_model",
    "Geo.C153_model_csr",
    "Geo.C153_weights"
   ],
   "note": ""
  },
  {
   "property": "C154",
   "status": "proved",
   "theorems": [
    "Geo.C154_bounded_support",
    "Geo.C154_boxcar",
    "Geo.C154_exponential",
    "Geo.C154_gaussian"
   ],
   "note": ""
  },
  {
   "property": "C155",
   "status": "proved",
   "theorems": [
    "Geo.C155_fit",
    "Geo.C155_fitted_before",
    "Geo.C155_later_calls",
    "Geo.C155_predict_by_fit",
    "Geo.C155_predict_by_weight"
   ],
   "note": ""
  },
  {
   "property": "C156",
   "status": "proved",
   "theorems": [
    "Geo.C156_fit",
    "Geo.C156_later_calls",
    "Geo.C156_predict_by_fit"
   ],
   "note": ""
  },
  {
   "property": "C157",
   "status": "proved",
   "theorems": [
    "Geo.C157_data_size",
    "Geo.C157_defaults",
    "Geo.C157_fitting_bound",
    "Geo.C157_fitting_record",
    "Geo.C157_llocv",
    "Geo.C157_remarks_true",
    "Geo.C157_robust_bound",
    "Geo.C157_robust_unbound",
    "Geo.C157_told_apart",
    "Geo.C157_variation_bound"
   ],
   "note": ""
  },
  {
   "property": "C158",
   "status": "proved",
   "theorems": [
    "Geo.C158_fit",
    "Geo.C158_interleavings",
    "Geo.C158_predict_by_fit",
    "Geo.C158_shared_object",
    "Geo.C158_stacking_fit",
    "Geo.C158_stacking_predict"
   ],
   "note": ""
  },
  {
   "property": "C159",
   "status": "proved",
   "theorems": [
    "Geo.C159_count",
    "Geo.C159_counts_as_zero",
    "Geo.C159_dimension_drops",
    "Geo.C159_fit",
    "Geo.C159_fraction",
    "Geo.C159_heaviest",
    "Geo.C159_infinite",
    "Geo.C159_infinite_coordinates",
    "Geo.C159_kernel",
    "Geo.C159_metrics",
    "Geo.C159_no_trace",
    "Geo.C159_place_without_coordinates",
    "Geo.C159_predict_by_weight",
    "Geo.C159_same_program"
   ],
   "note": ""
  },
  {
   "property": "C160",
   "status": "proved",
   "theorems": [
    "Geo.C160_follows_within",
    "Geo.C160_local_predictions",
    "Geo.C160_local_predictions_csr",
    "Geo.C160_predict_by_fit",
    "Geo.C160_predict_by_weight",
    "Geo.C160_residuals",
    "Geo.C160_residuals_csr",
    "Geo.C160_ridge_overshoots"
   ],
   "note": ""
  },
  {
   "property": "C161",
   "status": "proved",
   "theorems": [
    "Geo.C161_local_predictions",
    "Geo.C161_local_predictions_csr",
    "Geo.C161_predict_by_fit_coordinates",
    "Geo.C161_predict_by_fit_given",
    "Geo.C161_predict_by_weight",
    "Geo.C161_weights"
   ],
   "note": ""
  },
  {
   "property": "C162",
   "status": "proved",
   "theorems": [
    "Geo.C162_bandwidth",
    "Geo.C162_exceptions",
    "Geo.C162_fit",
    "Geo.C162_loss",
    "Geo.C162_model",
    "Geo.C162_predict_by_fit_coordinates",
    "Geo.C162_predict_by_fit_given",
    "Geo.C162_predict_by_weight",
    "Geo.C162_weights"
   ],
   "note": ""
  },
  {
   "property": "C163",
   "status": "proved",
   "theorems": [
    "Geo.C163_figure",
    "Geo.C163_files",
    "Geo.C163_fitting_script",
    "Geo.C163_plain_steps"
   ],
   "note": ""
  },
  {
   "property": "C164",
   "status": "proved",
   "theorems": [
    "Geo.C164_local_models",
    "Geo.C164_predict_by_fit_coordinates",
    "Geo.C164_predict_by_fit_given",
    "Geo.C164_predict_by_weight",
    "Geo.C164_weights"
   ],
   "note": ""
  },
  {
   "property": "C165",
   "status": "proved",
   "theorems": [
    "Geo.C165_in_sample_loss",
    "Geo.C165_in_sample_loss_csr",
    "Geo.C165_least_squares",
    "Geo.C165_least_squares_csr",
    "Geo.C165_mean",
    "Geo.C165_mean_csr",
    "Geo.C165_needs_minimiser",
    "Geo.C165_score",
    "Geo.C165_score_csr"
   ],
   "note": ""
  },
  {
   "property": "C166",
   "status": "proved",
   "theorems": [
    "Geo.C166_combinations",
    "Geo.C166_competitors"
   ],
   "note": ""
  },
  {
   "property": "C167",
   "status": "proved",
   "theorems": [
    "Geo.C167_fit",
    "Geo.C167_fit_counts",
    "Geo.C167_stacking",
    "Geo.C167_stacking_counts"
   ],
   "note": ""
  },
  {
   "property": "C168",
   "status": "proved",
   "theorems": [
    "Geo.C168_applies",
    "Geo.C168_narrow",
    "Geo.C168_predict_by_fit",
    "Geo.C168_wide"
   ],
   "note": ""
  },
  {
   "property": "C169",
   "status": "proved",
   "theorems": [
    "Geo.C169_fit_accepts",
    "Geo.C169_fit_refuses",
    "Geo.C169_form_irrelevant",
    "Geo.C169_missing_values",
    "Geo.C169_predict_by_fit",
    "Geo.C169_predict_by_weight",
    "Geo.C169_stacking_accepts",
    "Geo.C169_stacking_refuses"
   ],
   "note": ""
  },
  {
   "property": "C170",
   "status": "proved",
   "theorems": [
    "Geo.C170_after_fit",
    "Geo.C170_converted",
    "Geo.C170_predict_by_fit",
    "Geo.C170_two_models",
    "Geo.C170_unaffected"
   ],
   "note": ""
  },
  {
   "property": "C171",
   "status": "proved",
   "theorems": [
    "Geo.C171_before_matters",
    "Geo.C171_first_alone",
    "Geo.C171_fit"
   ],
   "note": ""
  },
  {
   "property": "C172",
   "status": "proved",
   "theorems": [
    "Geo.C172_by_fit",
    "Geo.C172_by_weight",
    "Geo.C172_stack_affine",
    "Geo.C172_stack_reverses",
    "Geo.C172_stack_slope",
    "Geo.C172_two_tables"
   ],
   "note": ""
  },
  {
   "property": "C173",
   "status": "proved",
   "theorems": [
    "Geo.C173_fixed_bandwidth",
    "Geo.C173_luck",
    "Geo.C173_no_training",
    "Geo.C173_pair",
    "Geo.C173_rate_one",
    "Geo.C173_total"
   ],
   "note": ""
  },
  {
   "property": "C174",
   "status": "proved",
   "theorems": [
    "Geo.C174_order",
    "Geo.C174_wider_kernel"
   ],
   "note": ""
  },
  {
   "property": "C175",
   "status": "proved",
   "theorems": [
    "Geo.C175_at_most_one",
    "Geo.C175_constant",
    "Geo.C175_constant_guard",
    "Geo.C175_constant_guard_fails",
    "Geo.C175_ieee",
    "Geo.C175_monotone",
    "Geo.C175_overflow",
    "Geo.C175_perfect"
   ],
   "note": ""
  },
  {
   "property": "C176",
   "status": "proved",
   "theorems": [
    "Geo.C176_decimal_rates",
    "Geo.C176_exact",
    "Geo.C176_left_out",
    "Geo.C176_monotone",
    "Geo.C176_off_by_one",
    "Geo.C176_range"
   ],
   "note": ""
  },
  {
   "property": "C177",
   "status": "proved",
   "theorems": [
    "Geo.C177_all_lost",
    "Geo.C177_half",
    "Geo.C177_half_subnormal",
    "Geo.C177_safe",
    "Geo.C177_strict_maximum"
   ],
   "note": ""
  },
  {
   "property": "C178",
   "status": "proved",
   "theorems": [
    "Geo.C178_away_from_antipode",
    "Geo.C178_defined",
    "Geo.C178_nan",
    "Geo.C178_self",
    "Geo.C178_symmetric"
   ],
   "note": ""
  },
  {
   "property": "C179",
   "status": "proved",
   "theorems": [
    "Geo.C179_between",
    "Geo.C179_grid_ends",
    "Geo.C179_index_linear",
    "Geo.C179_index_median",
    "Geo.C179_one_off",
    "Geo.C179_outside",
    "Geo.C179_range",
    "Geo.C179_reach",
    "Geo.C179_ties"
   ],
   "note": ""
  },
  {
   "property": "C180",
   "status": "proved",
   "theorems": [
    "Geo.C180_adaptive_grid",
    "Geo.C180_percentiles"
   ],
   "note": ""
  },
  {
   "property": "C181",
   "status": "proved",
   "theorems": [
    "Geo.C181_constant",
    "Geo.C181_constant_mi",
    "Geo.C181_constant_not_recognised",
    "Geo.C181_constant_sign",
    "Geo.C181_constant_sign_mi",
    "Geo.C181_exact",
    "Geo.C181_negated"
   ],
   "note": ""
  },
  {
   "property": "C182",
   "status": "proved",
   "theorems": [
    "Geo.C182_effect_rounded",
    "Geo.C182_exact",
    "Geo.C182_flat",
    "Geo.C182_global_flat",
    "Geo.C182_global_monotone",
    "Geo.C182_monotone"
   ],
   "note": ""
  },
  {
   "property": "C183",
   "status": "proved",
   "theorems": [
    "Geo.C183_exact",
    "Geo.C183_global_draws",
    "Geo.C183_global_equal",
    "Geo.C183_global_exact",
    "Geo.C183_global_nonneg",
    "Geo.C183_global_zero",
    "Geo.C183_local_nonneg",
    "Geo.C183_local_zero",
    "Geo.C183_repetitions"
   ],
   "note": ""
  },
  {
   "property": "C184",
   "status": "proved",
   "theorems": [
    "Geo.C184_by_weight",
    "Geo.C184_constant",
    "Geo.C184_exact",
    "Geo.C184_flat",
    "Geo.C184_module",
    "Geo.C184_module_exact",
    "Geo.C184_monotone",
    "Geo.C184_nonneg"
   ],
   "note": ""
  },
  {
   "property": "C185",
   "status": "proved",
   "theorems": [
    "Geo.C185_all",
    "Geo.C185_depth",
    "Geo.C185_error",
    "Geo.C185_far_observation",
    "Geo.C185_few",
    "Geo.C185_few_weights",
    "Geo.C185_long",
    "Geo.C185_out_of_reach",
    "Geo.C185_range",
    "Geo.C185_recursion",
    "Geo.C185_sign_blind"
   ],
   "note": ""
  },
  {
   "property": "C186",
   "status": "proved",
   "theorems": [
    "Geo.C186_bound",
    "Geo.C186_three",
    "Geo.C186_total",
    "Geo.C186_total_double",
    "Geo.C186_two",
    "Geo.C186_weights",
    "Geo.C186_weights_double"
   ],
   "note": ""
  },
  {
   "property": "C187",
   "status": "proved",
   "theorems": [
    "Geo.C187_adaptive",
    "Geo.C187_beyond",
    "Geo.C187_bound",
    "Geo.C187_boxcar",
    "Geo.C187_double",
    "Geo.C187_exact",
    "Geo.C187_kilometres",
    "Geo.C187_only_neighbour",
    "Geo.C187_power_of_two",
    "Geo.C187_training_location"
   ],
   "note": ""
  }
 ]
}