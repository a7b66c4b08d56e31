# Axioms each property theorem depends on

Output of `#print axioms` for the theorems named in `MANIFEST.json`, grouped by result.

## propext

* `Geo.C24_shape_can_shrink`

## Quot.sound, propext

* `Geo.C07_unknown_kernel_raises`
* `Geo.C25_second_order_sparse`
* `Geo.C38_batches`
* `Geo.C38_default_batches`
* `Geo.C38_no_batches`
* `Geo.C39_sampled_jobs_first_locations`
* `Geo.C41_unchanged`
* `Geo.C42_claims_fitted`
* `Geo.C42_mixed_state`
* `Geo.C42_refused_data`
* `Geo.C43_weighted_sum`
* `Geo.C45_caches_required`
* `Geo.C45_coordinates_ignored`
* `Geo.C45_nothing_given`
* `Geo.C45_weights_only_rejected`
* `Geo.C46_other_feature_count`
* `Geo.C48_raises`
* `Geo.C57_loop`
* `Geo.C57_monotone`
* `Geo.C57_result`
* `Geo.C57_terminates`
* `Geo.C67_same_function`
* `Geo.C67_zero_weights`
* `Geo.C68_features`
* `Geo.C69_one_method`
* `Geo.C69_reproducible`
* `Geo.C71_constant`
* `Geo.C71_range_missing`
* `Geo.C78_equal_lengths_fail`
* `Geo.C78_failure_keeps`
* `Geo.C84_refused`
* `Geo.C98_bars`
* `Geo.C98_shared_bar`
* `Geo.C99_continuous`
* `Geo.C101_lines`
* `Geo.C101_per_feature`
* `Geo.C101_same_rows`
* `Geo.C104_features_alone`
* `Geo.C107_fitted_weights_reproduce`
* `Geo.C107_symmetric`
* `Geo.C107_transposed`
* `Geo.C109_refused`
* `Geo.C116_refit`
* `Geo.C119_panels`
* `Geo.C120_fit`
* `Geo.C120_predict`
* `Geo.C122_best`
* `Geo.C122_best_nan`
* `Geo.C122_comparison_fails`
* `Geo.C122_search`
* `Geo.C122_variation_fails`
* `Geo.C128_zero_row`
* `Geo.C130_raises`
* `Geo.C134_no_parameters`
* `Geo.C135_unknown_keyword`
* `Geo.C146_whole_nan`
* `Geo.C150_fit`
* `Geo.C151_alternatives`
* `Geo.C151_predict_fresh`
* `Geo.C155_predict_by_weight`
* `Geo.C159_infinite_coordinates`
* `Geo.C160_follows_within`
* `Geo.C169_fit_accepts`
* `Geo.C169_predict_by_fit`
* `Geo.C169_predict_by_weight`
* `Geo.C170_after_fit`
* `Geo.C170_converted`
* `Geo.C170_predict_by_fit`
* `Geo.C170_two_models`
* `Geo.C170_unaffected`
* `Geo.C175_overflow`
* `Geo.C184_exact`
* `Geo.C184_flat`
* `Geo.C184_module_exact`

## Classical.choice, Quot.sound, propext

* `Geo.C01_kernel_weight_in_unit_interval`
* `Geo.C02_nearer_never_less_weight`
* `Geo.C03_zero_distance_weight_one`
* `Geo.C04_support`
* `Geo.C05_monotone_in_bandwidth`
* `Geo.C05_unit_free`
* `Geo.C06_lazy_eq_eager`
* `Geo.C07_unknown_kernel_rejected`
* `Geo.C08_count_validated`
* `Geo.C08_kth_nearest`
* `Geo.C08_neighbour_counts`
* `Geo.C09_between_min_and_max`
* `Geo.C09_fraction_one_is_max`
* `Geo.C09_fraction_validated`
* `Geo.C09_median_unbiased_value`
* `Geo.C09_monotone_in_fraction`
* `Geo.C09_order_irrelevant`
* `Geo.C09_selected_count`
* `Geo.C10_lazy_accepts_zero`
* `Geo.C10_lazy_eq_eager`
* `Geo.C10_lazy_fraction`
* `Geo.C10_lazy_fraction_differs`
* `Geo.C10_lazy_rejects_wide`
* `Geo.C10_unsorted_counts`
* `Geo.C10_unsorted_fraction`
* `Geo.C11_rows_normalised`
* `Geo.C12_neighbour_in_every_dimension`
* `Geo.C13_proportions_kept`
* `Geo.C14_self_is_heaviest`
* `Geo.C15_accepted_iff`
* `Geo.C15_both_raises`
* `Geo.C15_each_dimension_one`
* `Geo.C15_neither_raises`
* `Geo.C16_distance_ratio_always_raises`
* `Geo.C16_distance_ratio_index_error`
* `Geo.C17_target_points`
* `Geo.C17_target_relabelling`
* `Geo.C18_row_independence`
* `Geo.C18_lazy_depends_on_other_rows`
* `Geo.C18_row_independence`
* `Geo.C18_source_points`
* `Geo.C19_omitted_targets_always_raise`
* `Geo.C20_backend`
* `Geo.C20_distance_args_never_reach_metric`
* `Geo.C20_lists`
* `Geo.C20_only_emptiness_matters`
* `Geo.C21_antipodal`
* `Geo.C21_bounds`
* `Geo.C21_full_turn`
* `Geo.C21_haversine_argument_valid`
* `Geo.C21_is_central_angle`
* `Geo.C21_meridian`
* `Geo.C21_rotation`
* `Geo.C21_self`
* `Geo.C21_symmetric`
* `Geo.C21_triangle`
* `Geo.C21_zero_iff`
* `Geo.C22_validation`
* `Geo.C23_second_order_api`
* `Geo.C23_second_order_dense`
* `Geo.C24_sparse_eq_dense`
* `Geo.C25_complete_schedule_exists`
* `Geo.C25_second_order_dense`
* `Geo.C25_shrink_dense`
* `Geo.C25_shrink_sparse`
* `Geo.C25_stacking_fit`
* `Geo.C25_stacking_loop`
* `Geo.C26_largest_survives`
* `Geo.C26_rate_rejected`
* `Geo.C26_row_not_emptied`
* `Geo.C26_shrink_dense`
* `Geo.C27_monotone`
* `Geo.C27_rate_one`
* `Geo.C27_rate_zero`
* `Geo.C27_survivor_count`
* `Geo.C27_survivor_count_distinct`
* `Geo.C28_sparse_eq_dense`
* `Geo.C28_stored_zeros_matter`
* `Geo.C29_caller_array`
* `Geo.C29_caller_array_sparse`
* `Geo.C30_sample_dense`
* `Geo.C31_generator_reset`
* `Geo.C31_history_independent`
* `Geo.C31_history_independent_sparse`
* `Geo.C31_repeat`
* `Geo.C32_sparse_canonical`
* `Geo.C32_sparse_eq_dense`
* `Geo.C33_ridge_minimiser`
* `Geo.C33_unpenalised_constant_feature_raises`
* `Geo.C34_scale_targets`
* `Geo.C34_scale_weights`
* `Geo.C34_shift_features`
* `Geo.C34_shift_targets`
* `Geo.C34_zero_weight_irrelevant`
* `Geo.C35_agrees_with_sklearn_iff`
* `Geo.C35_at_most_one`
* `Geo.C35_constant_targets`
* `Geo.C35_mean_scores_zero`
* `Geo.C35_one_iff_exact`
* `Geo.C36_leave_local_out`
* `Geo.C36_sampled_jobs_leak`
* `Geo.C37_locality`
* `Geo.C38_kth_location`
* `Geo.C39_jobs_eq_batches`
* `Geo.C39_sampled_jobs_differ`
* `Geo.C40_sparse_eq_dense`
* `Geo.C40_stored_zero_rejected`
* `Geo.C41_overwritten`
* `Geo.C41_second_model`
* `Geo.C43_between`
* `Geo.C43_common_value`
* `Geo.C44_predict_by_fit_batch_dependent`
* `Geo.C44_predict_by_fit_given_weights`
* `Geo.C44_predict_by_fit_single_point`
* `Geo.C44_predict_by_weight`
* `Geo.C46_mean_over_history`
* `Geo.C47_one_feature_permuted`
* `Geo.C48_mixed_pairs`
* `Geo.C48_uninitialised`
* `Geo.C49_own_target_unused`
* `Geo.C50_genuine_predictions`
* `Geo.C51_own_weight_needed`
* `Geo.C51_stored_estimators_reproduce`
* `Geo.C52_numba_changes_nothing`
* `Geo.C52_ridge_numba_changes_nothing`
* `Geo.C52_ridge_solvers`
* `Geo.C52_sparse_dense_numba_agree`
* `Geo.C53_default_always_fails`
* `Geo.C54_agree_without_shrinking`
* `Geo.C54_disagree_after_shrinking`
* `Geo.C54_recorded_matrices`
* `Geo.C55_dense_uses_only_base_zero`
* `Geo.C55_own_target_leaks`
* `Geo.C55_sparse_ignores_rate`
* `Geo.C56_numba_fails`
* `Geo.C56_predictions`
* `Geo.C56_replaces_fitted_model`
* `Geo.C56_uncovered_training_point`
* `Geo.C58_adaptive_grid`
* `Geo.C58_one_or_two_values`
* `Geo.C58_too_few_values`
* `Geo.C59_bins_partition`
* `Geo.C59_one_value_per_grid_point`
* `Geo.C60_additive`
* `Geo.C60_global_additive`
* `Geo.C60_ignored_feature`
* `Geo.C60_start`
* `Geo.C60_steps`
* `Geo.C61_centred`
* `Geo.C61_global_centred`
* `Geo.C61_normalise_shifts`
* `Geo.C62_degenerate`
* `Geo.C62_global`
* `Geo.C62_missing_column`
* `Geo.C62_succeeds`
* `Geo.C62_too_few`
* `Geo.C63_affine`
* `Geo.C63_expectation`
* `Geo.C63_relabel`
* `Geo.C63_scale_weights`
* `Geo.C63_undefined`
* `Geo.C63_value`
* `Geo.C64_empty`
* `Geo.C64_permutation_variance`
* `Geo.C64_same_statistic`
* `Geo.C64_variances`
* `Geo.C64_variances_differ`
* `Geo.C65_sum`
* `Geo.C65_undefined`
* `Geo.C66_columns`
* `Geo.C66_equal_row_sums`
* `Geo.C66_not_row_standardised`
* `Geo.C66_symmetric`
* `Geo.C67_additive`
* `Geo.C67_bounds`
* `Geo.C67_rejects`
* `Geo.C67_scale_weights`
* `Geo.C67_value`
* `Geo.C68_diagonal`
* `Geo.C68_no_overlap`
* `Geo.C68_overlap`
* `Geo.C68_reorder`
* `Geo.C68_scale`
* `Geo.C68_shift`
* `Geo.C68_succeeds`
* `Geo.C68_symmetric`
* `Geo.C69_clusters`
* `Geo.C69_plain`
* `Geo.C69_quantiles`
* `Geo.C69_total`
* `Geo.C70_medoids`
* `Geo.C71_byte`
* `Geo.C71_normed`
* `Geo.C71_range`
* `Geo.C71_range_limits`
* `Geo.C71_units`
* `Geo.C72_directional`
* `Geo.C72_directional_nan`
* `Geo.C72_gaussian`
* `Geo.C72_gaussian_lower`
* `Geo.C72_gaussian_refused`
* `Geo.C72_gaussian_refused_full`
* `Geo.C72_gaussian_scalar`
* `Geo.C72_radial`
* `Geo.C72_sine`
* `Geo.C73_kernel_formulas`
* `Geo.C74_existing_store_returned_for_any_points`
* `Geo.C74_overwrite`
* `Geo.C74_store_round_trip`
* `Geo.C75_not_after_sampled_fit`
* `Geo.C76_locations`
* `Geo.C76_neighbour_matrix`
* `Geo.C76_score`
* `Geo.C77_few_neighbours`
* `Geo.C77_local`
* `Geo.C77_local_curves`
* `Geo.C78_continuous_data_fail`
* `Geo.C78_result`
* `Geo.C79_own_distances`
* `Geo.C79_shared_store`
* `Geo.C80_several`
* `Geo.C80_single`
* `Geo.C81_polynomials`
* `Geo.C81_relu_exponential`
* `Geo.C81_sigmoid`
* `Geo.C82_dimensions`
* `Geo.C82_pair_as_list`
* `Geo.C82_points`
* `Geo.C83_bounds_overwritten`
* `Geo.C83_exponential`
* `Geo.C83_uniform`
* `Geo.C83_variance_is_sd`
* `Geo.C84_local`
* `Geo.C84_nonneg`
* `Geo.C84_succeeds`
* `Geo.C84_unused`
* `Geo.C84_value`
* `Geo.C85_exact_values`
* `Geo.C85_ieee`
* `Geo.C85_lazy_eq_eager`
* `Geo.C85_monotone`
* `Geo.C85_support_can_shrink`
* `Geo.C85_unit_interval`
* `Geo.C86_double_sum`
* `Geo.C86_row`
* `Geo.C86_row_sum`
* `Geo.C87_attributes`
* `Geo.C87_no_coordinates`
* `Geo.C88_sampling_never_fits`
* `Geo.C88_sampling_outcome`
* `Geo.C89_target_units`
* `Geo.C90_penalty_has_a_unit`
* `Geo.C90_ridge_units`
* `Geo.C90_stacking_units`
* `Geo.C91_constant_target`
* `Geo.C92_points`
* `Geo.C92_row_order`
* `Geo.C93_dimension_units`
* `Geo.C93_neighbour_count`
* `Geo.C94_fit`
* `Geo.C94_predict`
* `Geo.C94_similarity`
* `Geo.C95_adaptive_bandwidth`
* `Geo.C95_adaptive_kernel`
* `Geo.C95_adaptive_weight_matrix`
* `Geo.C95_boxcar_jumps`
* `Geo.C95_kernel_continuous`
* `Geo.C95_weight_matrix`
* `Geo.C96_exact_fit`
* `Geo.C96_own_weight`
* `Geo.C96_predict_by_fit`
* `Geo.C96_predict_by_weight`
* `Geo.C97_equal_weights`
* `Geo.C97_global_model`
* `Geo.C97_leave_one_out`
* `Geo.C97_leave_one_out_csr`
* `Geo.C97_predict_by_fit`
* `Geo.C97_predict_by_weight`
* `Geo.C98_enough_labels`
* `Geo.C98_own_bar`
* `Geo.C99_cluster_traces`
* `Geo.C99_embedding`
* `Geo.C99_hover_index`
* `Geo.C99_hover_right_iff`
* `Geo.C100_aspect`
* `Geo.C100_degenerate`
* `Geo.C100_ranges`
* `Geo.C100_surfaces`
* `Geo.C101_ranges`
* `Geo.C102_style`
* `Geo.C102_style_strict`
* `Geo.C103_aspect_scale`
* `Geo.C103_camera`
* `Geo.C105_same_sources`
* `Geo.C105_same_targets`
* `Geo.C106_casts_are_a_library`
* `Geo.C106_exact`
* `Geo.C106_indistinguishable`
* `Geo.C106_only_single_precision_matters`
* `Geo.C106_order`
* `Geo.C106_resolution`
* `Geo.C106_timestamps`
* `Geo.C106_translation`
* `Geo.C107_differs`
* `Geo.C107_not_left_out_again`
* `Geo.C108_local_models`
* `Geo.C108_predictions`
* `Geo.C108_weights`
* `Geo.C109_constant`
* `Geo.C109_diagram`
* `Geo.C109_equal_row_sums`
* `Geo.C109_other_weights`
* `Geo.C109_quadrants`
* `Geo.C110_one_feature`
* `Geo.C110_square_strong`
* `Geo.C111_builds`
* `Geo.C111_draws`
* `Geo.C111_lower_end`
* `Geo.C112_default`
* `Geo.C112_list_refused`
* `Geo.C112_plain`
* `Geo.C112_three_calls`
* `Geo.C113_stacking_offset`
* `Geo.C113_weight_model_zero`
* `Geo.C114_two_steps`
* `Geo.C115_local_predictions`
* `Geo.C115_predict_by_fit`
* `Geo.C115_predict_by_weight`
* `Geo.C115_residuals`
* `Geo.C115_ridge_extrapolates`
* `Geo.C115_stacking`
* `Geo.C116_stacking`
* `Geo.C117_affine`
* `Geo.C117_feature_units`
* `Geo.C117_global_units`
* `Geo.C117_interaction`
* `Geo.C117_interaction_line`
* `Geo.C117_local_units`
* `Geo.C117_monotone`
* `Geo.C117_simulation`
* `Geo.C117_slope`
* `Geo.C117_superposition`
* `Geo.C117_target_units`
* `Geo.C117_weight_scale`
* `Geo.C118_fit`
* `Geo.C118_global_ale`
* `Geo.C118_importance`
* `Geo.C118_importance_local`
* `Geo.C118_interaction`
* `Geo.C118_local_ale`
* `Geo.C118_new_object`
* `Geo.C118_partial_dependence`
* `Geo.C118_predict_by_fit`
* `Geo.C118_predict_by_weight`
* `Geo.C118_stacking_fit`
* `Geo.C118_stacking_predict`
* `Geo.C119_colours_agree`
* `Geo.C119_colours_differ`
* `Geo.C119_map_and_embedding`
* `Geo.C119_sampled`
* `Geo.C120_again`
* `Geo.C120_stacking`
* `Geo.C120_stacking_again`
* `Geo.C120_stacking_not_again`
* `Geo.C121_after_stacking`
* `Geo.C121_stacking`
* `Geo.C121_still_fit`
* `Geo.C121_still_stacking`
* `Geo.C121_weight_model`
* `Geo.C122_data_size`
* `Geo.C122_files`
* `Geo.C122_grid`
* `Geo.C122_grid_rates`
* `Geo.C122_info_wins`
* `Geo.C122_statistics`
* `Geo.C122_trial`
* `Geo.C122_variation`
* `Geo.C122_variation_still`
* `Geo.C123_condensed`
* `Geo.C123_sorted`
* `Geo.C124_score`
* `Geo.C124_too_few`
* `Geo.C124_weight_model`
* `Geo.C124_weight_model_csr`
* `Geo.C125_boosted`
* `Geo.C125_local`
* `Geo.C125_plain`
* `Geo.C125_record`
* `Geo.C125_scores`
* `Geo.C125_stacking`
* `Geo.C125_uncovered`
* `Geo.C126_ale`
* `Geo.C126_ale_additive`
* `Geo.C126_ale_linear`
* `Geo.C126_ale_whole`
* `Geo.C126_global`
* `Geo.C126_local`
* `Geo.C126_pd`
* `Geo.C126_pd_few`
* `Geo.C127_concentrated`
* `Geo.C127_curve`
* `Geo.C127_few`
* `Geo.C127_superposition`
* `Geo.C127_wide`
* `Geo.C128_error`
* `Geo.C128_nonneg`
* `Geo.C128_range`
* `Geo.C129_boxcar`
* `Geo.C129_lower_tail`
* `Geo.C129_nan`
* `Geo.C129_no_self`
* `Geo.C129_uniform`
* `Geo.C130_additive`
* `Geo.C130_failures`
* `Geo.C130_own_point`
* `Geo.C130_result`
* `Geo.C131_bin`
* `Geo.C131_figure`
* `Geo.C132_global_methods_agree`
* `Geo.C132_local_methods_raise`
* `Geo.C133_local_ale_rows`
* `Geo.C133_refused`
* `Geo.C134_no_score`
* `Geo.C134_stacked_fit`
* `Geo.C135_local_estimator_required`
* `Geo.C135_midpoint`
* `Geo.C135_positional_shift`
* `Geo.C135_stacking_defaults`
* `Geo.C135_stacking_extra_positional`
* `Geo.C135_stacking_parameters`
* `Geo.C135_stacking_unknown_keyword`
* `Geo.C135_weight_model_defaults`
* `Geo.C135_weight_model_parameters`
* `Geo.C136_given_weights_unrecorded`
* `Geo.C136_local_ale_coordinates`
* `Geo.C136_local_ale_stale`
* `Geo.C136_partial_dependence_raises`
* `Geo.C137_large_penalty`
* `Geo.C137_near_local_mean`
* `Geo.C137_penalty_shrinks`
* `Geo.C137_stacking_shrinks`
* `Geo.C138_dense_fit`
* `Geo.C138_last_location`
* `Geo.C138_sparse_fit`
* `Geo.C139_fit`
* `Geo.C139_sparse_fit`
* `Geo.C140_fraction_size`
* `Geo.C140_small_fraction`
* `Geo.C140_tied_neighbours`
* `Geo.C140_training_size`
* `Geo.C140_two_neighbours`
* `Geo.C141_balance`
* `Geo.C141_count_not_mutual`
* `Geo.C141_fit`
* `Geo.C142_fit`
* `Geo.C142_narrow`
* `Geo.C142_nested`
* `Geo.C142_wide`
* `Geo.C142_wide_limit`
* `Geo.C143_hat_matrix`
* `Geo.C143_hat_matrix_csr`
* `Geo.C143_least_squares`
* `Geo.C143_predict_by_fit`
* `Geo.C143_predict_by_weight`
* `Geo.C143_superposition`
* `Geo.C143_superposition_csr`
* `Geo.C144_alone`
* `Geo.C144_fit`
* `Geo.C144_weights`
* `Geo.C145_score`
* `Geo.C145_twin`
* `Geo.C145_twin_weight`
* `Geo.C146_by_row_fails`
* `Geo.C146_by_row_one_feature`
* `Geo.C146_by_row_one_location`
* `Geo.C146_by_row_out_of_range`
* `Geo.C146_by_row_square`
* `Geo.C146_whole`
* `Geo.C147_global_ALE`
* `Geo.C147_local_ALE`
* `Geo.C147_partial_dependence`
* `Geo.C147_pd_curve`
* `Geo.C147_weighted_ale`
* `Geo.C148_add`
* `Geo.C148_constant`
* `Geo.C148_coordinates`
* `Geo.C148_drop`
* `Geo.C148_order`
* `Geo.C148_scalar`
* `Geo.C148_split`
* `Geo.C148_twice`
* `Geo.C149_count_lowered`
* `Geo.C149_given_weights`
* `Geo.C149_leave_one_out`
* `Geo.C149_not_by_coordinates`
* `Geo.C149_weights`
* `Geo.C150_measure`
* `Geo.C150_ranks`
* `Geo.C151_predict`
* `Geo.C151_runs`
* `Geo.C151_scores`
* `Geo.C151_stacking`
* `Geo.C151_stale_curves`
* `Geo.C151_stale_points`
* `Geo.C152_bandwidth`
* `Geo.C152_bandwidth_metric`
* `Geo.C152_boxcar`
* `Geo.C152_metric`
* `Geo.C152_prediction`
* `Geo.C152_weights`
* `Geo.C153_bandwidth`
* `Geo.C153_fit`
* `Geo.C153_fraction`
* `Geo.C153_model`
* `Geo.C153_model_csr`
* `Geo.C153_weights`
* `Geo.C154_bounded_support`
* `Geo.C154_boxcar`
* `Geo.C154_exponential`
* `Geo.C154_gaussian`
* `Geo.C155_fit`
* `Geo.C155_fitted_before`
* `Geo.C155_later_calls`
* `Geo.C155_predict_by_fit`
* `Geo.C156_fit`
* `Geo.C156_later_calls`
* `Geo.C156_predict_by_fit`
* `Geo.C157_data_size`
* `Geo.C157_defaults`
* `Geo.C157_fitting_bound`
* `Geo.C157_fitting_record`
* `Geo.C157_llocv`
* `Geo.C157_remarks_true`
* `Geo.C157_robust_bound`
* `Geo.C157_robust_unbound`
* `Geo.C157_told_apart`
* `Geo.C157_variation_bound`
* `Geo.C158_fit`
* `Geo.C158_interleavings`
* `Geo.C158_predict_by_fit`
* `Geo.C158_shared_object`
* `Geo.C158_stacking_fit`
* `Geo.C158_stacking_predict`
* `Geo.C159_count`
* `Geo.C159_counts_as_zero`
* `Geo.C159_dimension_drops`
* `Geo.C159_fit`
* `Geo.C159_fraction`
* `Geo.C159_heaviest`
* `Geo.C159_infinite`
* `Geo.C159_kernel`
* `Geo.C159_metrics`
* `Geo.C159_no_trace`
* `Geo.C159_place_without_coordinates`
* `Geo.C159_predict_by_weight`
* `Geo.C159_same_program`
* `Geo.C160_local_predictions`
* `Geo.C160_local_predictions_csr`
* `Geo.C160_predict_by_fit`
* `Geo.C160_predict_by_weight`
* `Geo.C160_residuals`
* `Geo.C160_residuals_csr`
* `Geo.C160_ridge_overshoots`
* `Geo.C161_local_predictions`
* `Geo.C161_local_predictions_csr`
* `Geo.C161_predict_by_fit_coordinates`
* `Geo.C161_predict_by_fit_given`
* `Geo.C161_predict_by_weight`
* `Geo.C161_weights`
* `Geo.C162_bandwidth`
* `Geo.C162_exceptions`
* `Geo.C162_fit`
* `Geo.C162_loss`
* `Geo.C162_model`
* `Geo.C162_predict_by_fit_coordinates`
* `Geo.C162_predict_by_fit_given`
* `Geo.C162_predict_by_weight`
* `Geo.C162_weights`
* `Geo.C163_figure`
* `Geo.C163_files`
* `Geo.C163_fitting_script`
* `Geo.C163_plain_steps`
* `Geo.C164_local_models`
* `Geo.C164_predict_by_fit_coordinates`
* `Geo.C164_predict_by_fit_given`
* `Geo.C164_predict_by_weight`
* `Geo.C164_weights`
* `Geo.C165_in_sample_loss`
* `Geo.C165_in_sample_loss_csr`
* `Geo.C165_least_squares`
* `Geo.C165_least_squares_csr`
* `Geo.C165_mean`
* `Geo.C165_mean_csr`
* `Geo.C165_needs_minimiser`
* `Geo.C165_score`
* `Geo.C165_score_csr`
* `Geo.C166_combinations`
* `Geo.C166_competitors`
* `Geo.C167_fit`
* `Geo.C167_fit_counts`
* `Geo.C167_stacking`
* `Geo.C167_stacking_counts`
* `Geo.C168_applies`
* `Geo.C168_narrow`
* `Geo.C168_predict_by_fit`
* `Geo.C168_wide`
* `Geo.C169_fit_refuses`
* `Geo.C169_form_irrelevant`
* `Geo.C169_missing_values`
* `Geo.C169_stacking_accepts`
* `Geo.C169_stacking_refuses`
* `Geo.C171_before_matters`
* `Geo.C171_first_alone`
* `Geo.C171_fit`
* `Geo.C172_by_fit`
* `Geo.C172_by_weight`
* `Geo.C172_stack_affine`
* `Geo.C172_stack_reverses`
* `Geo.C172_stack_slope`
* `Geo.C172_two_tables`
* `Geo.C173_fixed_bandwidth`
* `Geo.C173_luck`
* `Geo.C173_no_training`
* `Geo.C173_pair`
* `Geo.C173_rate_one`
* `Geo.C173_total`
* `Geo.C174_order`
* `Geo.C174_wider_kernel`
* `Geo.C175_at_most_one`
* `Geo.C175_constant`
* `Geo.C175_constant_guard`
* `Geo.C175_constant_guard_fails`
* `Geo.C175_ieee`
* `Geo.C175_monotone`
* `Geo.C175_perfect`
* `Geo.C176_decimal_rates`
* `Geo.C176_exact`
* `Geo.C176_left_out`
* `Geo.C176_monotone`
* `Geo.C176_off_by_one`
* `Geo.C176_range`
* `Geo.C177_all_lost`
* `Geo.C177_half`
* `Geo.C177_half_subnormal`
* `Geo.C177_safe`
* `Geo.C177_strict_maximum`
* `Geo.C178_away_from_antipode`
* `Geo.C178_defined`
* `Geo.C178_nan`
* `Geo.C178_self`
* `Geo.C178_symmetric`
* `Geo.C179_between`
* `Geo.C179_grid_ends`
* `Geo.C179_index_linear`
* `Geo.C179_index_median`
* `Geo.C179_one_off`
* `Geo.C179_outside`
* `Geo.C179_range`
* `Geo.C179_reach`
* `Geo.C179_ties`
* `Geo.C180_adaptive_grid`
* `Geo.C180_percentiles`
* `Geo.C181_constant`
* `Geo.C181_constant_mi`
* `Geo.C181_constant_not_recognised`
* `Geo.C181_constant_sign`
* `Geo.C181_constant_sign_mi`
* `Geo.C181_exact`
* `Geo.C181_negated`
* `Geo.C182_effect_rounded`
* `Geo.C182_exact`
* `Geo.C182_flat`
* `Geo.C182_global_flat`
* `Geo.C182_global_monotone`
* `Geo.C182_monotone`
* `Geo.C183_exact`
* `Geo.C183_global_draws`
* `Geo.C183_global_equal`
* `Geo.C183_global_exact`
* `Geo.C183_global_nonneg`
* `Geo.C183_global_zero`
* `Geo.C183_local_nonneg`
* `Geo.C183_local_zero`
* `Geo.C183_repetitions`
* `Geo.C184_by_weight`
* `Geo.C184_constant`
* `Geo.C184_module`
* `Geo.C184_monotone`
* `Geo.C184_nonneg`
* `Geo.C185_all`
* `Geo.C185_depth`
* `Geo.C185_error`
* `Geo.C185_far_observation`
* `Geo.C185_few`
* `Geo.C185_few_weights`
* `Geo.C185_long`
* `Geo.C185_out_of_reach`
* `Geo.C185_range`
* `Geo.C185_recursion`
* `Geo.C185_sign_blind`
* `Geo.C186_bound`
* `Geo.C186_three`
* `Geo.C186_total`
* `Geo.C186_total_double`
* `Geo.C186_two`
* `Geo.C186_weights`
* `Geo.C186_weights_double`
* `Geo.C187_adaptive`
* `Geo.C187_beyond`
* `Geo.C187_bound`
* `Geo.C187_boxcar`
* `Geo.C187_double`
* `Geo.C187_exact`
* `Geo.C187_kilometres`
* `Geo.C187_only_neighbour`
* `Geo.C187_power_of_two`
* `Geo.C187_training_location`
