{"claims": [
 {"property": "C01", "status": "proved", "theorems": ["Irspack.Props.C01_each_row_exactly_once", "Irspack.Props.C01_never_twice_never_outside", "Irspack.Props.C01_bounded_steps", "Irspack.Props.C01_terminates", "Irspack.Props.C01_shared_result_is_sequential", "Irspack.Props.C01_merged_accumulators_are_the_sum", "Irspack.Props.C01_each_row_once_if_one_worker_runs"], "note": ""},
 {"property": "C02", "status": "proved", "theorems": ["Irspack.Props.C02_threaded_product_is_matrix_product", "Irspack.Props.C02_zero_threads_rejected", "Irspack.Props.C02_threaded_product_returns"], "note": ""},
 {"property": "C03", "status": "partial", "theorems": ["Irspack.Props.C03_parallel_equals_sequential", "Irspack.Props.C03_thread_count_does_not_matter", "Irspack.Props.C03_ground_truth_cache_partial", "Irspack.Props.C03_ground_truth_cache_counterexample"], "note": "The metric computation is proved for every schedule. The constructor's parallel region builds the ground-truth sets with std::async without a launch policy: C03_ground_truth_cache_partial needs at least one worker to run, and C03_ground_truth_cache_counterexample shows what happens if none does."},
 {"property": "C04", "status": "proved", "theorems": ["Irspack.Props.C04_evaluated_list_is_top_cutoff", "Irspack.Props.C04_top_cutoff_is_unique", "Irspack.Props.C12_C04_C08_C13_chunk_report"], "note": ""},
 {"property": "C05", "status": "proved", "theorems": ["Irspack.Props.C05_metrics_in_unit_interval", "Irspack.Props.C05_C13_python_bounds"], "note": ""},
 {"property": "C06", "status": "proved", "theorems": ["Irspack.Props.C06_ndcg_one_iff", "Irspack.Props.C06_hit_one_iff", "Irspack.Props.C06_zero_iff"], "note": ""},
 {"property": "C07", "status": "proved", "theorems": ["Irspack.Props.C07_swap_up"], "note": ""},
 {"property": "C08", "status": "proved", "theorems": ["Irspack.Props.C08_C09_only_ranking_matters", "Irspack.Props.C08_other_scores_have_no_influence", "Irspack.Props.C08_excluded_items_never_recommended", "Irspack.Props.C12_C04_C08_C13_chunk_report", "Irspack.Props.C08_masked_scores_have_no_influence"], "note": ""},
 {"property": "C09", "status": "proved", "theorems": ["Irspack.Props.C08_C09_only_ranking_matters", "Irspack.Props.C09_monotone_transform"], "note": ""},
 {"property": "C10", "status": "proved", "theorems": ["Irspack.Props.C10_chunking_does_not_matter", "Irspack.Props.C10_matrix_equals_chunks", "Irspack.Props.C10_model_equals_matrix"], "note": ""},
 {"property": "C11", "status": "proved", "theorems": ["Irspack.Props.C11_row_mismatch_rejected"], "note": ""},
 {"property": "C12", "status": "proved", "theorems": ["Irspack.Props.C12_user_accounting", "Irspack.Props.C12_C04_C08_C13_chunk_report"], "note": ""},
 {"property": "C13", "status": "proved", "theorems": ["Irspack.Props.C13_diversity_values", "Irspack.Props.C13_diversity_bounds", "Irspack.Props.C13_gini_extremes", "Irspack.Props.C12_C04_C08_C13_chunk_report", "Irspack.Props.C05_C13_python_bounds"], "note": ""},
 {"property": "C14", "status": "proved", "theorems": ["Irspack.Props.C14_multiple_cutoffs", "Irspack.Props.C14_joint_succeeds"], "note": ""},
 {"property": "C15", "status": "proved", "theorems": ["Irspack.Props.C15_get_metrics_rejects_bad_arguments", "Irspack.Props.C15_parallel_rejects_bad_arguments", "Irspack.Props.C15_no_threads", "Irspack.Props.C15_constructor_accepts_iff", "Irspack.Props.C15_python_constructor", "Irspack.Props.C15_cold_constructor"], "note": ""},
 {"property": "C16", "status": "partial", "theorems": ["Irspack.Props.C16_frame_report_partial", "Irspack.Props.C16_frame_report_without_repetitions", "Irspack.Props.C16_late_hit_undefined", "Irspack.Props.C16_late_hit_counterexample", "Irspack.Props.C16_only_user_lists_matter", "Irspack.Props.C16_ground_truth_order_does_not_matter", "Irspack.Props.C16_unit_interval", "Irspack.Props.C16_repeated_recommendation_counterexample", "Irspack.Props.C16_zero_threads_counterexample"], "note": "Proved for every pair of frames in which no user has a hit at a position at or beyond the number of distinct items, in particular whenever no user is recommended an item twice (C16_frame_report_without_repetitions). Otherwise the native code reads outside its discount table: C16_late_hit_undefined, C16_late_hit_counterexample."},
 {"property": "C17", "status": "proved", "theorems": ["Irspack.Props.C17_cold_items_score_minus_inf", "Irspack.Props.C17_report"], "note": ""},
 {"property": "C18", "status": "partial", "theorems": ["Irspack.Props.C18_batch_is_top_cutoff", "Irspack.Props.C18_rejects_bad_arguments", "Irspack.Props.C18_threads_partial", "Irspack.Props.C18_compiled_argument_check", "Irspack.Props.C18_threads_counterexample", "Irspack.Props.C18_single_precision_counterexample"], "note": "The retrieved lists are proved for every input and every schedule in which at least one std::async worker runs (C18_threads_partial); C18_threads_counterexample shows the all-deferred case. C18_single_precision_counterexample shows that float32 scores are compared in single precision."},
 {"property": "C19", "status": "proved", "theorems": ["Irspack.Props.C19_single_agrees_with_batch", "Irspack.Props.C19_cutoff_zero_and_infinite_scores_counterexample"], "note": ""},
 {"property": "C20", "status": "proved", "theorems": ["Irspack.Props.C20_known_user", "Irspack.Props.C20_known_users_batch", "Irspack.Props.C20_new_user", "Irspack.Props.C20_new_users_batch", "Irspack.Props.C20_known_users_best", "Irspack.Props.C20_new_users_best", "Irspack.Props.C20_known_user_best", "Irspack.Props.C20_new_user_best", "Irspack.Props.C20_rejected"], "note": ""},
 {"property": "C21", "status": "proved", "theorems": ["Irspack.Props.C21_created_iff_distinct", "Irspack.Props.C21_index_round_trip", "Irspack.Props.C21_profile_matrix", "Irspack.Props.C21_batch_rows"], "note": ""},
 {"property": "C22", "status": "proved", "theorems": ["Irspack.Props.C22_conserves", "Irspack.Props.C22_sums_back", "Irspack.Props.C22_fractional_values_counterexample"], "note": "As stated, for integer-valued matrices. C22_fractional_values_counterexample shows what happens to fractional values."},
 {"property": "C23", "status": "proved", "theorems": ["Irspack.Props.C23_ratio_sizes", "Irspack.Props.C23_fixed_sizes", "Irspack.Props.C23_accepts_iff", "Irspack.Props.C23_extreme_ratios"], "note": ""},
 {"property": "C24", "status": "proved", "theorems": ["Irspack.Props.C24_time_split"], "note": ""},
 {"property": "C25", "status": "proved", "theorems": ["Irspack.Props.C25_partition_without_leakage", "Irspack.Props.C25_succeeds"], "note": ""},
 {"property": "C26", "status": "partial", "theorems": ["Irspack.Props.C26_sizes_partial", "Irspack.Props.C26_rejects_oversized", "Irspack.Props.C26_explicit_test_users_ignored_counterexample", "Irspack.Props.C26_ratio_overflow_counterexample", "Irspack.Props.C26_double_rounding_counterexample"], "note": "Exact sizes in exact arithmetic under the hypotheses in C26_sizes_partial. The code violates the full statement in three ways, each with a counterexample theorem: explicit n_test_user ignored, ratio overflow not rejected, and double rounding (49 users)."},
 {"property": "C27", "status": "proved", "theorems": ["Irspack.Props.C27_partition_by_flag", "Irspack.Props.C27_succeeds_iff", "Irspack.Props.C27_sizes", "Irspack.Props.C27_no_holdout_fails"], "note": ""},
 {"property": "C28", "status": "proved", "theorems": ["Irspack.Props.C28_frame_to_matrix", "Irspack.Props.C28_succeeds_iff", "Irspack.Props.C28_total_weight"], "note": ""},
 {"property": "C29", "status": "partial", "theorems": ["Irspack.Props.C29_accepts_iff", "Irspack.Props.C29_rejects_with_value_error", "Irspack.Props.C29_all_is_sum", "Irspack.Props.C29_concat", "Irspack.Props.C29_concat_item_ids_counterexample", "Irspack.Props.C29_frame_partial", "Irspack.Props.C29_explicit_zero_counterexample"], "note": "Proved except for explicitly stored zeros, for which df_train/df_test raise: C29_explicit_zero_counterexample."},
 {"property": "C30", "status": "proved", "theorems": ["Irspack.Props.C30_remove_diagonal", "Irspack.Props.C30_idempotent", "Irspack.Props.C30_rejects_non_square"], "note": ""},
 {"property": "C31", "status": "proved", "theorems": ["Irspack.Props.C31_same_pattern", "Irspack.Props.C31_bm25_formula", "Irspack.Props.C31_bm25_bounds", "Irspack.Props.C31_bm25_increasing", "Irspack.Props.C31_tf_idf"], "note": ""},
 {"property": "C32", "status": "proved", "theorems": ["Irspack.Props.C32_entries", "Irspack.Props.C32_rows_sum_to_one", "Irspack.Props.C32_ratios"], "note": ""},
 {"property": "C33", "status": "proved", "theorems": ["Irspack.Props.C33_top_k_best", "Irspack.Props.C33_rows_sorted"], "note": ""},
 {"property": "C34", "status": "proved", "theorems": ["Irspack.Props.C34_threads_and_chunks", "Irspack.Props.C34_succeeds_iff"], "note": ""},
 {"property": "C35", "status": "proved", "theorems": ["Irspack.Props.C35_formulas", "Irspack.Props.C35_cosine_range", "Irspack.Props.C35_set_range", "Irspack.Props.C35_symmetric", "Irspack.Props.C35_tversky_is_jaccard", "Irspack.Props.C35_asymmetric_half_is_cosine", "Irspack.Props.C35_shrinkage"], "note": ""},
 {"property": "C36", "status": "proved", "theorems": ["Irspack.Props.C36_p3_random_walk", "Irspack.Props.C36_rows_are_distributions", "Irspack.Props.C36_rp3_penalises_popularity", "Irspack.Props.C36_beta_zero", "Irspack.Props.C36_normalized_rows", "Irspack.Props.C36_rejects_negative"], "note": ""},
 {"property": "C37", "status": "partial", "theorems": ["Irspack.Props.C37_coordinate_minimiser_partial", "Irspack.Props.C37_never_increases_partial", "Irspack.Props.C37_longer_is_not_worse_partial", "Irspack.Props.C37_exact_test_is_lossless", "Irspack.Props.C37_iterations_partial", "Irspack.Props.C37_weights_are_visits", "Irspack.Props.C37_learned_loss_partial", "Irspack.Props.C37_lost_updates_counterexample", "Irspack.Props.C37_lossless_means_nothing_dropped", "Irspack.Props.C37_near_minimiser", "Irspack.Props.C37_bounded_increase", "Irspack.Props.C37_bounded_total", "Irspack.Props.C37_learned_loss_bound"], "note": "Descent and coordinate-wise exactness hold as long as no non-zero change falls under the tolerance of Eigen's isZero (always, if that test were exact). With any positive tolerance the claim is false: C37_lost_updates_counterexample. For every tolerance the damage is bounded: C37_near_minimiser, C37_bounded_increase, C37_bounded_total, C37_learned_loss_bound; the bound for one update is attained."},
 {"property": "C38", "status": "partial", "theorems": ["Irspack.Props.C38_fixed_point_optimal_partial", "Irspack.Props.C38_documented_problem_solved_partial", "Irspack.Props.C38_near_optimal", "Irspack.Props.C38_stopped_near_optimal"], "note": "Exact optimality is proved for states reached without dropping a small non-zero change (see C37). For every tolerance, and for the stopping rule that is used, C38_near_optimal and C38_stopped_near_optimal bound the distance from optimality."},
 {"property": "C39", "status": "partial", "theorems": ["Irspack.Props.C39_zero_diagonal_partial", "Irspack.Props.C39_nonnegative", "Irspack.Props.C39_at_most_top_k", "Irspack.Props.C39_short_columns_complete_partial", "Irspack.Props.C39_top_k_counterexample"], "note": "Non-negativity and 'at most top_k' hold always; zero diagonal without top_k; columns with at most top_k coefficients are complete. With top_k the shared sort buffer leaks entries of other columns, even onto the diagonal: C39_top_k_counterexample."},
 {"property": "C40", "status": "proved", "theorems": ["Irspack.Props.C40_dense_slim_optimal", "Irspack.Props.C40_edlae_optimal", "Irspack.Props.C40_edlae_without_dropout", "Irspack.Props.C40_edlae_full_dropout"], "note": ""},
 {"property": "C41", "status": "proved", "theorems": ["Irspack.Ials.C41_loss_is_documented", "Irspack.Ials.C41_loss_of_reached", "Irspack.Ials.C41_observed_iff_nonzero", "Irspack.Ials.C41_loss_deterministic", "Irspack.Ials.C41_zero_threads"], "note": ""},
 {"property": "C42", "status": "partial", "theorems": ["Irspack.Ials.C42_epoch_never_increases_partial", "Irspack.Ials.C42_user_half_never_increases_partial", "Irspack.Ials.C42_item_half_never_increases_partial", "Irspack.Ials.C42_epoch_regularised", "Irspack.Ials.C42_cholesky_users_optimal", "Irspack.Ials.C42_cholesky_items_optimal", "Irspack.Ials.C42_subspace_descent_no_stall", "Irspack.Ials.C42_cg_no_stall", "Irspack.Ials.C42_cholesky_empty_row_error", "Irspack.Ials.C42_subspace_empty_row_counterexample"], "note": "Proved for every solver, thread count and interleaving whenever the half-epoch ends without exception and non-finite numbers; C42_epoch_regularised shows that it does when every row has positive regularisation. With the iALS++ solver, alpha0 = 0, nu != 0 and a row without interactions the code computes 0/0: C42_subspace_empty_row_counterexample."},
 {"property": "C43", "status": "proved", "theorems": ["Irspack.Ials.C43_system_is_optimality", "Irspack.Ials.C43_cg_solves_users", "Irspack.Ials.C43_cg_solves_items", "Irspack.Ials.C43_cg_near_optimum", "Irspack.Ials.C43_more_steps", "Irspack.Ials.C43_orthogonal_residuals"], "note": ""},
 {"property": "C44", "status": "proved", "theorems": ["Irspack.Ials.C44_batched_gram", "Irspack.Ials.C44_buffer_in_bounds", "Irspack.Ials.C44_user_system", "Irspack.Ials.C44_shared_gram"], "note": ""},
 {"property": "C45", "status": "proved", "theorems": ["Irspack.Ials.C45_cold_user_minimises", "Irspack.Ials.C45_cold_user_cg", "Irspack.Ials.C45_own_row_only", "Irspack.Ials.C45_empty_profile_zero", "Irspack.Ials.C45_matches_training", "Irspack.Ials.C45_cold_scores", "Irspack.Ials.C45_cold_user_succeeds", "Irspack.Ials.C45_wrong_width", "Irspack.Ials.C45_cold_item_minimises"], "note": ""},
 {"property": "C46", "status": "proved", "theorems": ["Irspack.Ials.C46_block_scores", "Irspack.Ials.C46_block_equals_indexed", "Irspack.Ials.C46_get_score", "Irspack.Ials.C46_invalid_ranges"], "note": ""},
 {"property": "C47", "status": "proved", "theorems": ["Irspack.Ials.C47_user_weights_optimal", "Irspack.Ials.C47_item_weights_optimal", "Irspack.Ials.C47_halves_never_increase", "Irspack.Ials.C47_epoch_never_increases", "Irspack.Ials.C47_cholesky_users_optimal", "Irspack.Ials.C47_cholesky_items_optimal", "Irspack.Ials.C47_warmup", "Irspack.Ials.C47_epoch_succeeds", "Irspack.Ials.C47_predicted", "Irspack.Ials.C47_empty_history_user", "Irspack.Ials.C47_empty_history_item", "Irspack.Ials.C47_from_features_only", "Irspack.Ials.C47_empty_history_accepted", "Irspack.Ials.C47_from_features_accepted", "Irspack.Ials.C47_additional_items", "Irspack.Ials.C47_scores_from_features", "Irspack.Ials.C47_cold_user_with_features", "Irspack.Ials.C47_rejections", "Irspack.Ials.C47_cold_rejections"], "note": ""},
 {"property": "C48", "status": "proved", "theorems": ["Irspack.Ials.C48_config_roundtrip", "Irspack.Ials.C48_solver_config_roundtrip", "Irspack.Ials.C48_trainer_pickle", "Irspack.Ials.C48_unknown_processors", "Irspack.Ials.C48_old_pickle", "Irspack.Ials.C48_malformed_state", "Irspack.Ials.C48_save_load", "Irspack.Ials.C48_save_load_loss", "Irspack.Ials.C48_load_without_weights"], "note": "Where std::thread::hardware_concurrency() returns 0 (number not known), C48_unknown_processors shows that no trainer can be unpickled."},
 {"property": "C49", "status": "proved", "theorems": ["Irspack.Ials.C49_same_total_weight", "Irspack.Ials.C49_unchanged", "Irspack.Ials.C49_defined", "Irspack.Ials.C49_no_interactions"], "note": ""},
 {"property": "C50", "status": "proved", "theorems": ["Irspack.Score.C50_remove_seen", "Irspack.Score.C50_remove_seen_index_error", "Irspack.Score.C50_remove_seen_block", "Irspack.Score.C50_remove_seen_cold", "Irspack.Score.C50_remove_seen_errors", "Irspack.Score.C50_similarity_score", "Irspack.Score.C50_similarity_block", "Irspack.Score.C50_similarity_block_beyond", "Irspack.Score.C50_similarity_cold", "Irspack.Score.C50_similarity_index_error", "Irspack.Score.C50_similarity_before_learn", "Irspack.Score.C50_similarity_remove_seen", "Irspack.Score.C50_user_similarity", "Irspack.Score.C50_top_pop", "Irspack.Score.C50_embedding", "Irspack.Score.C50_embedding_handed_out", "Irspack.Score.C50_embedding_errors", "Irspack.Score.C50_embedding_cold", "Irspack.Score.C50_nmf", "Irspack.Score.C50_truncated_components", "Irspack.Score.C50_similarity_evaluated", "Irspack.Score.C50_top_pop_evaluated"], "note": ""},
 {"property": "C51", "status": "proved", "theorems": ["Irspack.EarlyStop.C51_best_state", "Irspack.EarlyStop.C51_best_view", "Irspack.EarlyStop.C51_evaluated_again", "Irspack.EarlyStop.C51_returns_iff", "Irspack.EarlyStop.C51_nothing_usable", "Irspack.EarlyStop.C51_stale_state_counterexample", "Irspack.EarlyStop.C51_history", "Irspack.Ials.C51_ials"], "note": ""},
 {"property": "C52", "status": "proved", "theorems": ["Irspack.EarlyStop.C52_patience", "Irspack.EarlyStop.C52_reports", "Irspack.EarlyStop.C52_pruned", "Irspack.EarlyStop.C52_at_most_max_epoch", "Irspack.EarlyStop.C52_validate_epoch_zero", "Irspack.EarlyStop.C52_order_of_calls"], "note": ""},
 {"property": "C53", "status": "proved", "theorems": ["Irspack.EarlyStop.C53_learn", "Irspack.EarlyStop.C53_no_learnt_epochs", "Irspack.EarlyStop.C53_retrain", "Irspack.EarlyStop.C53_retrain_view", "Irspack.Ials.C53_ials"], "note": ""},
 {"property": "C54", "status": "partial", "theorems": ["Irspack.Tuning.C54_fixed_override", "Irspack.Tuning.C54_default_suggestion", "Irspack.Tuning.C54_best", "Irspack.Tuning.C54_errors", "Irspack.Tuning.C54_tune", "Irspack.Tuning.C54_reported_was_used", "Irspack.Tuning.C54_fixed_not_reported_partial", "Irspack.Tuning.C54_history", "Irspack.Tuning.C54_direction_counterexample", "Irspack.Tuning.C54_custom_suggestion_counterexample", "Irspack.Tuning.C54_recorded_name_counterexample"], "note": "Overriding, sampling, best trial, errors and history are proved. 'Fixed parameters are not reported' is proved for the default suggestion when training records no fixed name (C54_fixed_not_reported_partial) and false otherwise: two counterexample theorems. C54_direction_counterexample: handed a study that maximises, tuning returns the parameters of a trial with the least score."},
 {"property": "C55", "status": "partial", "theorems": ["Irspack.Tuning.C55_names_partial", "Irspack.Tuning.C55_names_counterexample", "Irspack.Tuning.C55_ranges", "Irspack.Tuning.C55_nan_counterexample"], "note": "Names and ranges proved as stated, except that a name with a trailing newline is accepted (C55_names_counterexample) and NaN bounds are accepted (C55_nan_counterexample)."},
 {"property": "C56", "status": "proved", "theorems": ["Irspack.Threads.C56_explicit", "Irspack.Threads.C56_environment", "Irspack.Threads.C56_fallback", "Irspack.Threads.C56_literal_unique"], "note": ""},
 {"property": "C57", "status": "partial", "theorems": ["Irspack.Download.C57_archives_complete", "Irspack.Download.C57_manager_reads_complete", "Irspack.Download.C57_restart", "Irspack.Download.C57_no_leftovers", "Irspack.Download.C57_truncated_response_counterexample", "Irspack.Download.C57_generic_crash_counterexample", "Irspack.Download.C57_arguments", "Irspack.Download.C57_http_errors"], "note": "Proved for every history of MIND downloads provided that a response that ends without an exception is whole; the code does not check this and C57_truncated_response_counterexample shows what follows. C57_generic_crash_counterexample shows the failure of the generic downloader named in the statement. Power failure is not modelled."},
 {"property": "C58", "status": "proved", "theorems": ["Irspack.Tuning.C58_terminates", "Irspack.Tuning.C58_zero_never_returns", "Irspack.Tuning.C58_empty", "Irspack.Tuning.C58_result", "Irspack.Tuning.C58_best_dimension", "Irspack.Tuning.C58_neighbourhood", "Irspack.Tuning.C58_scale_zero", "Irspack.Tuning.C58_tie_counterexample", "Irspack.Tuning.C58_zero_counterexample"], "note": "As stated with its exceptions: exploration, termination and the result are proved; C58_zero_counterexample and C58_tie_counterexample show the two exceptions named in the statement. Optuna gives pruned trials their last reported value, which the code includes in the comparison: C58_result says so, C58_best_dimension is for a pruner that stops only trials worse than a completed one."},
 {"property": "C59", "status": "partial", "theorems": ["Irspack.Mind.C59_member", "Irspack.Mind.C59_impressions", "Irspack.Mind.C59_meaning_unique", "Irspack.Mind.C59_positions", "Irspack.Mind.C59_errors", "Irspack.Mind.C59_interactions", "Irspack.Mind.C59_splits", "Irspack.Mind.C59_file", "Irspack.Mind.C59_blank_impressions_counterexample", "Irspack.Mind.C59_repeated_id_counterexample", "Irspack.Mind.C59_items", "Irspack.Mind.C59_entities", "Irspack.Mind.C59_read", "Irspack.Mind.C59_read_rejections", "Irspack.Mind.C59_read_interactions", "Irspack.Mind.C59_embeddings", "Irspack.Mind.C59_trailing_tab_counterexample"], "note": "Proved for rows with impressions that are not blank; C59_blank_impressions_counterexample and C59_repeated_id_counterexample show a row without an item and impressions of two readers under one id. Numeric conversion of identifiers is not modelled; embedding lines with a trailing tab are a counterexample of their own."},
 {"property": "C60", "status": "partial", "theorems": ["Irspack.Props.C60_untied_items", "Irspack.Props.C60_untied_users", "Irspack.Props.C60_item_similarity_partial", "Irspack.Props.C60_rows_are_top_k_partial", "Irspack.Props.C60_column_wise_counterexample", "Irspack.Props.C60_user_similarity_partial", "Irspack.Props.C60_user_rows_are_top_k_partial"], "note": "Every kept weight is the documented similarity and every row keeps its top_k best; the documented column-wise top_k is violated by the item-based recommenders: C60_column_wise_counterexample."},
 {"property": "C61", "status": "proved", "theorems": ["Irspack.Props.C61_untied_columns", "Irspack.Props.C61_columns_are_top_k"], "note": ""},
 {"property": "C62", "status": "proved", "theorems": ["Irspack.Ials.C62_epoch", "Irspack.Ials.C62_training", "Irspack.Ials.C62_user_scores", "Irspack.Ials.C62_embeddings", "Irspack.Ials.C62_cold_scores", "Irspack.Ials.C62_cold_scores_item_features", "Irspack.Ials.C62_learn", "Irspack.Ials.C62_training_succeeds"], "note": ""},
 {"property": "C63", "status": "proved", "theorems": ["Irspack.MultVAE.C63_epoch", "Irspack.MultVAE.C63_annealing", "Irspack.MultVAE.C63_training_errors", "Irspack.MultVAE.C63_l2_regularizer_ignored", "Irspack.MultVAE.C63_loss_nonneg", "Irspack.MultVAE.C63_cold_scores", "Irspack.MultVAE.C63_own_profile_only", "Irspack.MultVAE.C63_score_formula", "Irspack.MultVAE.C63_objective", "Irspack.MultVAE.C63_known_users", "Irspack.MultVAE.C63_restored_scores"], "note": ""},
 {"property": "C64", "status": "partial", "theorems": ["Irspack.Tuning.Shared.C64_genuine", "Irspack.Tuning.Shared.C64_complete_partial", "Irspack.Tuning.Shared.C64_lost_update_counterexample"], "note": "Genuineness is proved for all schedules; completeness for non-overlapping updates; C64_lost_update_counterexample shows the lost update."},
 {"property": "C65", "status": "partial", "theorems": ["Irspack.Download.C65_token", "Irspack.Download.C65_argument_kept_partial", "Irspack.Download.C65_token_leak_counterexample"], "note": "Choice of the token proved for Hugging Face; C65_token_leak_counterexample: the token of the environment is sent to Azure."},
 {"property": "C66", "status": "partial", "theorems": ["Irspack.Tables.C66_rows", "Irspack.Tables.C66_too_long", "Irspack.Tables.C66_long_first_line_counterexample", "Irspack.Tables.C66_quote_counterexample", "Irspack.Tables.C66_open_quote_counterexample"], "note": "Proved for tables without quotation marks at the start of a field and without lines longer than the first; pandas' tokenizer is modelled by its documented state machine (trusted). The counterexample theorems show the exceptions in the statement."},
 {"property": "C67", "status": "partial", "theorems": ["Irspack.Datasets.C67_test_data", "Irspack.Datasets.C67_labels", "Irspack.Datasets.C67_repeated_user_counterexample", "Irspack.Datasets.C67_no_pair", "Irspack.Datasets.C67_no_negatives"], "note": "C67_test_data is for all well-formed files; the labels are as stated when no user has two lines, C67_repeated_user_counterexample otherwise. Malformed lines: C67_no_pair, C67_no_negatives."},
 {"property": "C68", "status": "proved", "theorems": ["Irspack.Datasets.C68_interactions", "Irspack.Datasets.C68_blank_line_counterexample"], "note": "As stated with its exception: an equivalence for all files without blank lines; C68_blank_line_counterexample shows what happens on blank lines."},
 {"property": "C69", "status": "proved", "theorems": ["Irspack.Datasets.C69_ratings", "Irspack.Datasets.C69_genres"], "note": "For ratings whose fields contain no colon, quotation mark or white space. Conversion to numbers and dates is not modelled."},
 {"property": "C70", "status": "partial", "theorems": ["Irspack.Memory.C70_chunks_memory", "Irspack.Memory.C70_chunks_untouched", "Irspack.Memory.C70_chunks_values", "Irspack.Memory.C70_chunks_raise", "Irspack.Memory.C70_matrix", "Irspack.Memory.C70_model_partial", "Irspack.Memory.C70_retrieval", "Irspack.Memory.C70_retrieval_writes", "Irspack.Memory.C70_model_counterexample", "Irspack.Memory.C70_retrieval_counterexample", "Irspack.Memory.C70_cold_model_partial", "Irspack.Memory.C70_cold_narrow", "Irspack.Memory.C70_cold_model_counterexample"], "note": "Matrix and block evaluation as stated. A model's storage is unchanged when its scoring methods hand out new arrays (as all recommenders of irspack do); C70_model_counterexample: a model answering with slices of a stored matrix has it overwritten with -inf. Retrieval leaves the array unchanged without forbidden items; C70_retrieval_counterexample: with forbidden items their scores in the caller's array are overwritten and a later call misses them. The same for EvaluatorWithColdUser: C70_cold_model_partial and C70_cold_model_counterexample; with cold items in the evaluation a model that covers the warm items only is never written to, whatever it returns (C70_cold_narrow)."},
 {"property": "C71", "status": "proved", "theorems": ["Irspack.SampleData.C71_data", "Irspack.SampleData.C71_density_met", "Irspack.SampleData.C71_search_ends"], "note": "Exact real arithmetic; the random draws are arguments."},
 {"property": "C72", "status": "partial", "theorems": ["Irspack.RecClasses.C72_constructor", "Irspack.RecClasses.C72_unknown_argument", "Irspack.RecClasses.C72_from_config", "Irspack.RecClasses.C72_config_accepted", "Irspack.RecClasses.C72_unknown_field", "Irspack.RecClasses.C72_other_config", "Irspack.RecClasses.C72_same_partial", "Irspack.RecClasses.C72_agreeing", "Irspack.RecClasses.C72_defaults_counterexample", "Irspack.RecClasses.C72_ials_solver_counterexample", "Irspack.RecClasses.C72_tune_range", "Irspack.RecClasses.C72_tune_range_offers", "Irspack.RecClasses.C72_checks", "Irspack.RecClasses.C72_by_name", "Irspack.RecClasses.C72_found", "Irspack.RecClasses.C72_exported_names", "Irspack.Props.C72_tuned_knn_learns", "Irspack.Props.C72_tuned_others_learn"], "note": "All as stated except that configuration and constructor build the same recommender only where their defaults agree. C72_defaults_counterexample: the default configurations of BPRFM (train_epochs 512), iALS (alpha0 1) and Mult-VAE (train_epochs 512) differ from the constructors' defaults (128, 0, 300). C72_ials_solver_counterexample: IALSConfig rejects the solver IALSPP and its block size. Arguments have the declared types; checks that involve the data are not modelled."},
 {"property": "C73", "status": "proved", "theorems": ["Irspack.Props.C73_training_data", "Irspack.Props.C73_concat", "Irspack.Props.C73_validation_report", "Irspack.Props.C73_test_report", "Irspack.Props.C73_cold_report", "Irspack.Props.C73_fractional_rating_counterexample"], "note": "Composes the models of the split (C25), the stacked matrices, the score API (C50) and the evaluators (C10, C12). Training itself enters only through the scores; exact arithmetic for scores and metrics. C73_fractional_rating_counterexample shows that the condition on ratings is needed."},
 {"property": "C74", "status": "partial", "theorems": ["Irspack.Props.C74_evaluator_partial", "Irspack.Props.C74_score_width_counterexample", "Irspack.Props.C74_strided_counterexample", "Irspack.Props.C74_lists_partial", "Irspack.Props.C74_lists_result", "Irspack.Props.C74_lists_rejected", "Irspack.Props.C74_repeated_recommendation_counterexample", "Irspack.Props.C74_retrieval", "Irspack.Props.C74_split_ratio", "Irspack.Props.C74_split_fixed", "Irspack.Props.C74_split_bound_needed", "Irspack.Props.C74_weighting", "Irspack.Props.C74_weighting_bound_needed", "Irspack.Props.C74_top_k", "Irspack.Props.C74_ials", "Irspack.Props.C74_ials_transform", "Irspack.Props.C74_unpickled_trainer_counterexample", "Irspack.Props.C74_product_partial", "Irspack.Props.C74_product_counterexample"], "note": "Proved without restriction for retrieval, the split, BM25/TF-IDF (matrices with column indices in range), top-k truncation and reached iALS trainers. Partial for the evaluator (needs a contiguous score matrix with one column per item; C74_score_width_counterexample, C74_strided_counterexample), for lists (exact condition in C74_lists_partial; C74_repeated_recommendation_counterexample) and for the sparse product (needs matching dimensions; C74_product_counterexample). C74_unpickled_trainer_counterexample: compute_loss after unpickling."},
 {"property": "C75", "status": "proved", "theorems": ["Irspack.Props.C75_accuracy_metrics", "Irspack.Props.C75_batches", "Irspack.Props.C75_relative_error", "Irspack.Props.C75_thread_counts", "Irspack.Props.C75_hits", "Irspack.Props.C75_gini", "Irspack.Props.C75_entropy", "Irspack.Props.C75_double", "Irspack.Props.C75_bitwise_counterexample"], "note": "Relative error per operation and of the logarithms as hypothesis, met by rounding to nearest with 53 digits (C75_double); exponent range, overflow and underflow are not modelled. C75_bitwise_counterexample shows why a tolerance is needed."},
 {"property": "C76", "status": "partial", "theorems": ["Irspack.RandomState.C76_seed_partial", "Irspack.RandomState.C76_generator_partial", "Irspack.RandomState.C76_isolated", "Irspack.RandomState.C76_history_partial", "Irspack.RandomState.C76_models", "Irspack.RandomState.C76_rejects", "Irspack.RandomState.C76_processes_partial", "Irspack.RandomState.C76_set_order_counterexample", "Irspack.RandomState.C76_multvae_counterexample"], "note": "Proved for every process state and history, with the order of Python sets as a parameter of the process. Partial: for the user hold-out the order of a set of items (hash-randomised strings) changes which interactions are held out for the same seed (C76_set_order_counterexample), and Mult-VAE training draws from numpy's global generator (C76_multvae_counterexample). SLIM and iALS draws are in C++ generators and not part of this claim; the bits of the generators are abstract."},
 {"property": "C77", "status": "proved", "theorems": ["Irspack.Evaluation.Named.C77_report", "Irspack.Evaluation.Named.C77_errors", "Irspack.Evaluation.Named.C77_labels", "Irspack.Evaluation.Named.C77_target_names", "Irspack.Evaluation.Named.C77_target", "Irspack.Evaluation.Named.C77_history"], "note": ""},
 {"property": "C78", "status": "proved", "theorems": ["Irspack.Props.C78_model_config", "Irspack.Props.C78_solver_config", "Irspack.Props.C78_refused", "Irspack.Props.C78_order", "Irspack.Props.C78_other_builders", "Irspack.Props.C78_recommender", "Irspack.Props.C78_configs_of_the_model", "Irspack.Props.C78_names", "Irspack.Props.C78_features_need_another_solver"], "note": "nanobind's conversions are modelled from its documentation: integers in range for size_t and int, floats or integers for Real, enumeration members by type. Both possible results of a setter (same object, copy) are covered."},
 {"property": "C79", "status": "proved", "theorems": ["Irspack.Props.C79_any_order", "Irspack.Props.C79_gram", "Irspack.Props.C79_gram_total", "Irspack.Props.C79_residual", "Irspack.Props.C79_near_optimal", "Irspack.Props.C79_items_near_optimal", "Irspack.Props.C79_threads", "Irspack.Props.C79_succeeds", "Irspack.Props.C79_scores", "Irspack.Props.C79_scores_refused", "Irspack.Props.C79_ranking", "Irspack.Props.C79_single", "Irspack.Props.C79_single_accepts", "Irspack.Props.C79_bitwise_counterexample"], "note": "Eigen's LLT enters by a backward-stability contract (Higham, theorem 10.4) and, for success, by acceptance of matrices that are definite with a margin (theorem 10.7). Overflow, underflow and NaN are not modelled; the cursor of prepare_p counts blocks of 16 rows; nu is assumed non-negative and u at most 1/8. The conjugate-gradient and iALS++ solvers and priors are not covered by this claim."},
 {"property": "C80", "status": "proved", "theorems": ["Irspack.Ials.C80_initial", "Irspack.Ials.C80_prefix", "Irspack.Ials.C80_same_numbers", "Irspack.Ials.C80_reproducible", "Irspack.Ials.C80_uninitialised", "Irspack.Ials.C80_uninitialised_counterexample"], "note": "Exact real arithmetic for the training, as in C42 and C62; with rounding, C79 shows that bits can differ with the number of threads. C80_uninitialised_counterexample: init_std = 0 is accepted and then the initial embeddings are whatever memory held."},
 {"property": "C81", "status": "proved", "theorems": ["Irspack.Ials.C81_loss_converges", "Irspack.Ials.C81_bounded", "Irspack.Ials.C81_movement_paid", "Irspack.Ials.C81_movement_any_solver", "Irspack.Ials.C81_rate", "Irspack.Ials.C81_changes_vanish", "Irspack.Ials.C81_limits_optimal", "Irspack.Ials.C81_limits_exist", "Irspack.Ials.C81_cg_stops", "Irspack.Ials.C81_runs_exist", "Irspack.Ials.C81_features_bounded", "Irspack.Ials.C81_features_movement_paid", "Irspack.Ials.C81_features_rate", "Irspack.Ials.C81_features_changes_vanish", "Irspack.Ials.C81_features_limits_optimal", "Irspack.Ials.C81_features_limits_exist", "Irspack.Ials.C81_features_runs_exist", "Irspack.Ials.C81_features_cg_stops"], "note": "Exact real arithmetic, so \"nothing changes any more\" is a statement about exact conjugate gradients with the cut-off 1e-20 of the code. Feature-aware training (theorems C81_features_*) has the same results for the Cholesky and conjugate-gradient solvers; iALS++ refuses features."},
 {"property": "C82", "status": "proved", "theorems": ["Irspack.Props.C82_feature_weighting", "Irspack.Props.C82_cosine_items", "Irspack.Props.C82_asymmetric_items", "Irspack.Props.C82_jaccard_items", "Irspack.Props.C82_tversky_items", "Irspack.Props.C82_cosine_users", "Irspack.Props.C82_asymmetric_users", "Irspack.Props.C82_rp3", "Irspack.Props.C82_p3", "Irspack.Props.C82_out_of_range", "Irspack.Props.C82_unknown_argument", "Irspack.Props.C82_unknown_weighting", "Irspack.Props.C82_negative_exponents"], "note": "Exact real arithmetic. A Python bool given for a number, or a number for a bool, is refused by the model. The row-wise meaning of top_k is what C60 proves (the documentation says column-wise)."},
 {"property": "C83", "status": "proved", "theorems": ["Irspack.Props.C83_slim", "Irspack.Props.C83_slim_not_whole", "Irspack.Props.C83_slim_weights", "Irspack.Props.C83_dense_slim", "Irspack.Props.C83_edlae", "Irspack.Props.C83_truncated_svd", "Irspack.Props.C83_nmf", "Irspack.Props.C83_bpr", "Irspack.Props.C83_multvae", "Irspack.Props.C83_unknown_argument"], "note": "scikit-learn, LightFM, haiku and optax are arbitrary functions of what they are asked for. The bound on the SLIM loss is for exact arithmetic and isZero tolerance 0, as in C37."},
 {"property": "C84", "status": "proved", "theorems": ["Irspack.Props.C84_learn", "Irspack.Props.C84_learn_with_features", "Irspack.Props.C84_learnt_loss", "Irspack.Props.C84_learn_succeeds", "Irspack.Props.C84_refused"], "note": "C84_learn, C84_learn_with_features: training in terms of the named settings; C84_learnt_loss, C84_learn_succeeds: meaning and totality; C84_refused: errors. Exact arithmetic; values of the wrong type are refused at construction in the model."},
 {"property": "C85", "status": "partial", "theorems": ["Irspack.EarlyStop.C85_retrain", "Irspack.EarlyStop.C85_silent_scoring", "Irspack.MultVAE.C85_multvae_keys", "Irspack.MultVAE.C85_multvae_learn", "Irspack.MultVAE.C85_multvae_partial", "Irspack.MultVAE.C85_multvae_counterexample"], "note": "Holds for trainers that scoring leaves alone (iALS, BPR) and for changes that training does not see (C85_retrain, C85_silent_scoring). Mult-VAE: scoring takes random keys that the next updates would have used; C85_multvae_keys says which, C85_multvae_partial covers the cases where this has no influence, C85_multvae_counterexample refutes the claim in general."},
 {"property": "C86", "status": "partial", "theorems": ["Irspack.Props.C86_stopped_gap", "Irspack.Props.C86_sweep_partial", "Irspack.Props.C86_enough_sweeps_partial", "Irspack.Props.C86_recommender_partial", "Irspack.Props.C86_distance", "Irspack.Props.C86_optimum", "Irspack.Props.C86_converges_partial"], "note": "Partial: the contraction, the bound on the sweeps and the limit assume an exact zero test; with Eigen's tolerance 1e-5 updates are lost and the loss need not decrease (C37_lost_updates_counterexample). C86_stopped_gap (the guarantee of the stopping rule) covers every tolerance."},
 {"property": "C87", "status": "proved", "theorems": ["Irspack.Evaluation.C87_evaluation", "Irspack.Evaluation.C87_ties_counterexample", "Irspack.Split.C87_log_order", "Irspack.Ials.C87_ials_loss", "Irspack.Ials.C87_ials_epoch", "Irspack.Ials.C87_ials_training", "Irspack.Ials.C87_ials_features", "Irspack.Props.C87_cosine_items", "Irspack.Props.C87_asymmetric_items", "Irspack.Props.C87_jaccard_items", "Irspack.Props.C87_tversky_items", "Irspack.Props.C87_cosine_users", "Irspack.Props.C87_asymmetric_users", "Irspack.Props.C87_p3", "Irspack.Props.C87_rp3", "Irspack.Props.C87_dense_slim", "Irspack.Props.C87_edlae", "Irspack.Props.C87_slim_solution", "Irspack.Props.C87_item_scores", "Irspack.Props.C87_user_scores", "Irspack.Props.C87_top_pop", "Irspack.Props.C87_item_knn_top_k", "Irspack.Props.C87_user_knn_top_k", "Irspack.Props.C87_walk_top_k", "Irspack.Props.C87_top_k_ties_counterexample"], "note": "C87_ties_counterexample shows that equal scores are ranked by item number, so ties are excepted in C87_evaluation. Neighbourhoods and walks of any top_k are covered where no two neighbours are equally similar (C87_item_knn_top_k, C87_user_knn_top_k, C87_walk_top_k); with ties the kept neighbours depend on the numbers (C87_top_k_ties_counterexample). Feature weightings assume positive stored values, iALS that no zeros are stored."},
 {"property": "C88", "status": "proved", "theorems": ["Irspack.Props.C88_core_history", "Irspack.Props.C88_core_cache", "Irspack.Props.C88_evaluator", "Irspack.Props.C88_multvae_trainer"], "note": "The workers that fill the cache are assumed to run (C03 says what happens when the runtime defers all of them). Pickling of iALS trainers is C48, what an unpickled iALS trainer cannot do any more C74."},
 {"property": "C89", "status": "partial", "theorems": ["Irspack.Props.C89_assignment", "Irspack.Props.C89_one_thread", "Irspack.Props.C89_single_block", "Irspack.Props.C89_first_block", "Irspack.Props.C89_schedule_counterexample", "Irspack.Props.C89_width_counterexample", "Irspack.Props.C89_distance_partial"], "note": "Counter-examples: with two threads the learnt weights depend on the schedule (C89_schedule_counterexample), and they depend on the SIMD width of the build (C89_width_counterexample). C89_distance_partial is stated for an exact zero test, as C86. Exact arithmetic."},
 {"property": "C90", "status": "proved", "theorems": ["Irspack.Props.C90_jaccard", "Irspack.Props.C90_tversky", "Irspack.Props.C90_p3", "Irspack.Props.C90_rp3", "Irspack.Props.C90_cosine_items", "Irspack.Props.C90_cosine_users", "Irspack.Props.C90_asymmetric_items", "Irspack.Props.C90_asymmetric_users", "Irspack.Props.C90_unnormalized", "Irspack.Props.C90_dense_slim", "Irspack.Props.C90_edlae", "Irspack.Props.C90_slim", "Irspack.Props.C90_ials_loss", "Irspack.Props.C90_ials_training", "Irspack.Props.C90_scores", "Irspack.Props.C90_top_pop", "Irspack.Props.C90_cosine_counterexample", "Irspack.Props.C90_ials_nu_counterexample", "Irspack.Props.C90_cg_counterexample"], "note": "Exact arithmetic. The converse (what happens without conversion) is shown by the three counter-examples."},
 {"property": "C91", "status": "proved", "theorems": ["Irspack.Props.C91_item_knn", "Irspack.Props.C91_user_knn", "Irspack.Props.C91_walks", "Irspack.Props.C91_linear", "Irspack.Props.C91_slim", "Irspack.Props.C91_truncated_svd", "Irspack.Props.C91_nmf", "Irspack.Props.C91_ials", "Irspack.Props.C91_study", "Irspack.Props.C91_tune_cosine"], "note": "Sampler: any function that answers requests with values within them (Optuna's contract). TruncatedSVD, NMF and the linear solvers as in C83 and C81 (library contract). BPR and Mult-VAE train in external libraries and are not covered."},
 {"property": "C92", "status": "proved", "theorems": ["Irspack.Props.C92_users_item_knn", "Irspack.Props.C92_users_item_recommenders", "Irspack.Props.C92_users_user_knn", "Irspack.Props.C92_users_user_recommenders", "Irspack.Props.C92_users_walks", "Irspack.Props.C92_users_top_pop", "Irspack.Props.C92_users_linear", "Irspack.Props.C92_users_scores", "Irspack.Props.C92_items_item_knn", "Irspack.Props.C92_items_item_recommenders", "Irspack.Props.C92_items_user_recommenders", "Irspack.Props.C92_items_top_pop", "Irspack.Props.C92_items_walks", "Irspack.Props.C92_users_slim", "Irspack.Props.C92_users_slim_counterexample", "Irspack.Props.C92_users_weighting_counterexample", "Irspack.Props.C92_users_ials_loss", "Irspack.Props.C92_users_ials_training", "Irspack.Props.C92_users_ials_nu_counterexample"], "note": "Defects or surprises recorded as counterexamples: SLIM multiplies its penalties by the number of users, also inactive ones (C92_users_slim_counterexample); TF-IDF and BM25 count all users (C92_users_weighting_counterexample); the regularisation of items in iALS counts all users unless nu = 0 (C92_users_ials_nu_counterexample). The iALS++ solver is not covered: it does not reset the embeddings of users without interactions. In the implementation the initial item embeddings also depend on the number of users through the shared random stream (C80); the theorem takes equal initial embeddings."},
 {"property": "C93", "status": "proved", "theorems": ["Irspack.Props.C93_evaluated_list_is_prefix", "Irspack.Props.C93_chunks_larger_cutoff", "Irspack.Props.C93_chunks_metrics_ordered", "Irspack.Props.C93_model_larger_cutoff", "Irspack.Props.C93_recall_flag", "Irspack.Props.C93_one_relevant_item", "Irspack.Props.C93_precision_ndcg_recall_fall_counterexample", "Irspack.Props.C93_recommend_known_users", "Irspack.Props.C93_recommend_known_user"], "note": "Spec/Cutoff.lean states both comparisons (GrowsWith, MetricsOrdered) on the fields of the returned dictionary. Entropy and Gini index are not compared. Retrieval is stated for known users (batch and single); single calls need a cutoff of at least 1 (C19)."},
 {"property": "C94", "status": "partial", "theorems": ["Irspack.Props.C94_values", "Irspack.Props.C94_scores", "Irspack.Props.C94_masks", "Irspack.Props.C94_linear", "Irspack.Props.C94_slim", "Irspack.Props.C94_knn_partial", "Irspack.Props.C94_knn_recommenders_partial", "Irspack.Props.C94_walks_partial", "Irspack.Props.C94_ials_training_partial", "Irspack.Props.C94_ials_loss_partial", "Irspack.Props.C94_jaccard_counterexample", "Irspack.Props.C94_weighting_counterexample", "Irspack.Props.C94_walks_counterexample", "Irspack.Props.C94_ials_loss_counterexample", "Irspack.Props.C94_evaluator_counterexample", "Irspack.Props.C94_split_counterexample"], "note": "Proved for scores and masks, TopPop, DenseSLIM, EDLAE, SLIM, the cosine and asymmetric cosine neighbourhoods, P3alpha and RP3beta (alpha > 0, every user and item with a non-zero value, no normalize_weight) and iALS (iALS++ loss, nu = 0). The claim fails in the code, with proved counterexamples, for Jaccard and Tversky, TF-IDF and BM25, the walks with alpha = 0 or with a user or item that has only zeros (0/0), the original iALS loss and nu != 0 (the default), the ground truth of the evaluator, and the rowwise split."},
 {"property": "C95", "status": "proved", "theorems": ["Irspack.Props.C95_users_item_based", "Irspack.Props.C95_top_pop", "Irspack.Props.C95_remove_seen", "Irspack.Props.C95_cosine_items", "Irspack.Props.C95_asymmetric_items", "Irspack.Props.C95_jaccard_items", "Irspack.Props.C95_tversky_items", "Irspack.Props.C95_p3", "Irspack.Props.C95_rp3", "Irspack.Props.C95_dense_slim", "Irspack.Props.C95_edlae", "Irspack.Props.C95_slim_solution", "Irspack.Props.C95_cosine_users", "Irspack.Props.C95_asymmetric_users", "Irspack.Props.C95_mult_vae", "Irspack.Props.C95_top_k_counterexample", "Irspack.Ials.C95_ials_cholesky", "Irspack.Ials.C95_ials_new_users", "Irspack.Ials.C95_ials_training", "Irspack.Ials.C95_ials_cg_counterexample"], "note": "Holds as stated. Two counterexamples are proved: top_k = 1 and the conjugate-gradient solver with one step."},
 {"property": "C96", "status": "proved", "theorems": ["Irspack.Props.C96_cosine_items", "Irspack.Props.C96_asymmetric_items", "Irspack.Props.C96_jaccard_items", "Irspack.Props.C96_tversky_items", "Irspack.Props.C96_p3", "Irspack.Props.C96_rp3", "Irspack.Props.C96_cosine_users", "Irspack.Props.C96_asymmetric_users", "Irspack.Props.C96_dense_slim", "Irspack.Props.C96_edlae", "Irspack.Props.C96_slim_solution", "Irspack.Props.C96_top_pop_counterexample", "Irspack.Props.C96_bm25_counterexample", "Irspack.Ials.C96_ials_counterexample"], "note": "BM25 weighting, TopPop and iALS violate the property by design; each has a counterexample theorem."},
 {"property": "C97", "status": "proved", "theorems": ["Irspack.Props.C97_threads", "Irspack.Props.C97_threads_learn", "Irspack.Props.C97_relative_error", "Irspack.Props.C97_item_similarity", "Irspack.Props.C97_user_similarity", "Irspack.Props.C97_top_k", "Irspack.Props.C97_p3", "Irspack.Props.C97_rp3", "Irspack.Props.C97_scores", "Irspack.Props.C97_toppop"], "note": "Feature weighting and normalize_weight are not rounded; overflow, underflow and NaN are outside the model. `1 - alpha` must be representable (Sterbenz: true for alpha in [1/2, 1])."},
 {"property": "C98", "status": "proved", "theorems": ["Irspack.Props.C98_cosine_items", "Irspack.Props.C98_asymmetric_items", "Irspack.Props.C98_jaccard_items", "Irspack.Props.C98_tversky_items", "Irspack.Props.C98_p3", "Irspack.Props.C98_rp3", "Irspack.Props.C98_cosine_users", "Irspack.Props.C98_asymmetric_users", "Irspack.Props.C98_toppop", "Irspack.Props.C98_top_k_counterexample"], "note": "Real arithmetic. BM25 is not local (C96_bm25_counterexample). The smaller top_k is refuted by C98_top_k_counterexample, as the statement says."},
 {"property": "C99", "status": "partial", "theorems": ["Irspack.Aliasing.C99_recommender", "Irspack.Aliasing.C99_evaluator", "Irspack.Aliasing.C99_mask_partial", "Irspack.Aliasing.C99_mask_counterexample", "Irspack.Aliasing.C99_cold_partial", "Irspack.Aliasing.C99_cold_counterexample", "Irspack.Aliasing.C99_pair_partial", "Irspack.Aliasing.C99_pair_counterexample", "Irspack.Aliasing.C99_in_place", "Irspack.Aliasing.C99_native_value", "Irspack.Aliasing.C99_features_partial", "Irspack.Aliasing.C99_features_counterexample", "Irspack.Aliasing.C99_two_models_counterexample"], "note": "partial: sharing of masked_interactions, input_interaction, X_train and X_test, and corruption of unsorted float64 features, are proved as counterexamples; the rules by which scipy shares buffers and nanobind sorts indices are taken from those libraries and not from /repo"},
 {"property": "C100", "status": "partial", "theorems": ["Irspack.ZipParts.C100_neumf_partial", "Irspack.ZipParts.C100_neumf_counterexample", "Irspack.ZipParts.C100_amazon_partial", "Irspack.ZipParts.C100_amazon_counterexample", "Irspack.ZipParts.C100_kept", "Irspack.ZipParts.C100_killed", "Irspack.ZipParts.C100_attempt"], "note": "partial: the empty NeuMF test table and the unreadable Amazon metadata after one failed download are proved as counterexamples; concurrent processes are not modelled here"},
 {"property": "C101", "status": "partial", "theorems": ["Irspack.Catalogue.C101_genres_partial", "Irspack.Catalogue.C101_genres_unnumbered", "Irspack.Catalogue.C101_genre_blank_counterexample", "Irspack.Catalogue.C101_genre_order_counterexample", "Irspack.Catalogue.C101_release_year", "Irspack.Catalogue.C101_release_years", "Irspack.Catalogue.C101_item_meta", "Irspack.Catalogue.C101_amazon_partial", "Irspack.Catalogue.C101_amazon_quiet", "Irspack.Catalogue.C101_amazon_eval_counterexample"], "note": "partial: genre names with blanks, genre files in another order, and the execution of downloaded lines are proved as counterexamples; conversion of columns to numbers and dates is not modelled"},
 {"property": "C102", "status": "partial", "theorems": ["Irspack.Interrupt.C102_similarity", "Irspack.Interrupt.C102_similarity_ends", "Irspack.Interrupt.C102_walks_partial", "Irspack.Interrupt.C102_walks_uninterrupted", "Irspack.Interrupt.C102_walks_counterexample", "Irspack.Interrupt.C102_svd_partial", "Irspack.Interrupt.C102_svd_counterexample", "Irspack.Interrupt.C102_svd_lost", "Irspack.Interrupt.C102_nmf_partial", "Irspack.Interrupt.C102_epochs_partial", "Irspack.Interrupt.C102_epochs_uninterrupted", "Irspack.Interrupt.C102_epochs_counterexample", "Irspack.Interrupt.C102_load", "Irspack.Interrupt.C102_load_counterexample"], "note": "Partial because the code violates the full statement: P3alpha/RP3beta with normalize_weight=True, TruncatedSVD with differing fits, the recommenders with epochs and load_state of iALS (counterexamples proved). C102_walks_uninterrupted, C102_epochs_uninterrupted and C102_load connect the step lists with the models of learn() used by the other claims. Interruptions during learn_with_optimizer with an evaluator are in C51_history."},
 {"property": "C103", "status": "proved", "theorems": ["Irspack.Nan.C103_defined_iff", "Irspack.Nan.C103_defined_iff_cpp20", "Irspack.Nan.C103_retrieval_defined_iff", "Irspack.Nan.C103_undefined_counterexample", "Irspack.Nan.C103_numbers", "Irspack.Nan.C103_all_nan", "Irspack.Nan.C103_retrieval_all_nan", "Irspack.Nan.C103_retrieval_masked_counterexample"], "note": "The condition is exact (iff) for the C++17 comparison of pairs, for the C++20 one and for retrieval; it is the strict weak ordering the standard requires, so where it fails nothing is claimed about the result. cutoff 0 is the business of C19."},
 {"property": "C104", "status": "partial", "theorems": ["Irspack.NewProfile.C104_by_value", "Irspack.NewProfile.C104_single", "Irspack.NewProfile.C104_ials_order", "Irspack.NewProfile.C104_ials_amounts_partial", "Irspack.NewProfile.C104_ials_counterexample"], "note": "C104_ials_amounts_partial: only for the iALS++ loss with nu = 0 and no confidence scaling; C104_ials_counterexample shows that the original loss, nu = 1 and the logarithmic scaling violate it. Weights are assumed non-negative (positive for the partial theorem)."},
 {"property": "C105", "status": "proved", "theorems": ["Irspack.Props.C105_rowwise", "Irspack.Props.C105_each_interaction", "Irspack.Props.C105_mean", "Irspack.Props.C105_users", "Irspack.Props.C105_each_user", "Irspack.Props.C105_specific", "Irspack.Props.C105_specific_each"], "note": "The shuffles are idealised: uniform and independent. The generators (numpy's RandomState, std::mt19937 with std::shuffle) and the effect of their seed are not modelled."},
 {"property": "C106", "status": "partial", "theorems": ["Irspack.Props.C106_jaccard", "Irspack.Props.C106_tversky", "Irspack.Props.C106_asymmetric_partial", "Irspack.Props.C106_cosine_partial", "Irspack.Props.C106_knn_scores", "Irspack.Props.C106_walk_scores", "Irspack.Props.C106_top_pop", "Irspack.Props.C106_cosine_counterexample", "Irspack.Props.C106_tfidf_counterexample", "Irspack.NewProfile.C106_ials_counterexample"], "note": "Proved for Jaccard and Tversky on all data, for both cosines on plain interaction data without feature weighting (C106_cosine_partial, C106_asymmetric_partial), and for the scores of the nearest-neighbour and random-walk recommenders. What is missing is false of the code: C106_cosine_counterexample (different strengths make the cosine of two items fall although a further user joins them), C106_tfidf_counterexample (the smoothed TF-IDF weight of an item everybody has used is negative, so every added interaction lowers its score) and C106_ials_counterexample."},
 {"property": "C107", "status": "partial", "theorems": ["Irspack.Props.C107_top_k", "Irspack.Props.C107_top_k_walk", "Irspack.Props.C107_shrinkage", "Irspack.Props.C107_shrinkage_ignored", "Irspack.Props.C107_rp3_beta", "Irspack.Props.C107_dense_slim_reg", "Irspack.Props.C107_edlae", "Irspack.Props.C107_slim_alpha_partial", "Irspack.Ials.C107_ials_reg", "Irspack.Ials.C107_ials_alpha0", "Irspack.Props.C107_top_k_users", "Irspack.Props.C107_shrinkage_users"], "note": "Proved for top_k, shrinkage, beta, reg, dropout_p, and reg and alpha0 of the Cholesky solver of iALS. For alpha of SLIM it is proved of the limits of training (C107_slim_alpha_partial); missing is what C86 misses, the inexact zero test of the code."},
 {"property": "C108", "status": "partial", "theorems": ["Irspack.WorkerFaults.C108_value_is_whole", "Irspack.WorkerFaults.C108_failure_raised", "Irspack.WorkerFaults.C108_no_false_alarm", "Irspack.WorkerFaults.C108_threads_partial", "Irspack.WorkerFaults.C108_threads_terminate", "Irspack.WorkerFaults.C108_other_rows", "Irspack.WorkerFaults.C108_each_row", "Irspack.WorkerFaults.C108_retrieve_partial", "Irspack.WorkerFaults.C108_retrieve_counterexample", "Irspack.WorkerFaults.C108_ground_truth_partial", "Irspack.WorkerFaults.C108_ground_truth_counterexample", "Irspack.WorkerFaults.C108_simplification", "Irspack.WorkerFaults.C108_similarity_blocks"], "note": "Full for the nine routines that collect their workers and for the nearest-neighbour computers: C108_value_is_whole, C108_failure_raised, C108_no_false_alarm, C108_other_rows, C108_each_row, C108_similarity_blocks. C108_simplification shows that the simpler regions used elsewhere in the model lose nothing. Partial because the code violates the property in the other seven: retrieval and the evaluator's ground truth swallow failures (C108_retrieve_counterexample, C108_ground_truth_counterexample; C108_retrieve_partial and C108_ground_truth_partial say which users are still right), and plain threads end the process (C108_threads_partial, C108_threads_terminate)."},
 {"property": "C109", "status": "partial", "theorems": ["Irspack.Props.C109_evaluated_is_served_partial", "Irspack.Props.C109_report_of_served", "Irspack.Props.C109_one_user_partial", "Irspack.Props.C109_new_users_partial", "Irspack.Props.C109_ties_counterexample", "Irspack.Props.C109_single_precision_counterexample", "Irspack.Props.C109_both_restrictions_counterexample"], "note": "Partial because ties, single-precision collisions and doubled restrictions make the two paths differ (counterexamples proved)."},
 {"property": "C110", "status": "proved", "theorems": ["Irspack.Props.C110_rows_alone", "Irspack.Props.C110_users_alone", "Irspack.Props.C110_batches_concatenate", "Irspack.Props.C110_pages_known_users", "Irspack.Props.C110_pages_new_users", "Irspack.Props.C110_pages_known_user", "Irspack.Props.C110_forbidding_unlisted", "Irspack.Props.C110_shards", "Irspack.Props.C110_repeated_allowed_counterexample", "Irspack.Props.C110_forbidding_listed"], "note": "All parts proved for lists of allowed items without repeats; C110_repeated_allowed_counterexample shows that with an ID given twice the pages differ from the longer list. Page, shard and single-user statements use exact comparison of the scores as served (after the conversion to single precision in batch calls)."},
 {"property": "C111", "status": "proved", "theorems": ["Irspack.Props.C111_sums_back_iff", "Irspack.Props.C111_values_kept", "Irspack.Props.C111_small_types", "Irspack.Props.C111_type_kept", "Irspack.Props.C111_wide_integers_counterexample", "Irspack.Props.C111_unsigned_counterexample"], "note": "The iff is proved for all types; the documentation's unrestricted promise fails (C111_wide_integers_counterexample, C111_unsigned_counterexample, and fractions in C22). Overflow, subnormals, NaN are not modelled."},
 {"property": "C112", "status": "partial", "theorems": ["Irspack.NanArgs.C112_refused_partial", "Irspack.NanArgs.C112_walks_refused_partial", "Irspack.NanArgs.C112_slim_refused", "Irspack.NanArgs.C112_ratio_refused", "Irspack.NanArgs.C112_nan_counterexample", "Irspack.NanArgs.C112_nan_alpha_counterexample", "Irspack.NanArgs.C112_infinite_alpha_counterexample", "Irspack.NanArgs.C112_infinite_shrinkage", "Irspack.NanArgs.C112_finite", "Irspack.NanArgs.C112_nan_walk_counterexample", "Irspack.NanArgs.C112_walk_finite", "Irspack.NanArgs.C112_nan_scores_counterexample", "Irspack.NanArgs.C112_finite_scores", "Irspack.NanArgs.C112_nan_evaluated_counterexample"], "note": "Partial: NaN passes the checks of the nearest-neighbour and random-walk computers (C112_nan_counterexample, C112_nan_alpha_counterexample, C112_nan_walk_counterexample), an infinite Tversky alpha gives NaN (C112_infinite_alpha_counterexample). Proved: exact refusal for arguments other than NaN, for SLIM and the split ratio with NaN included, infinite shrinkage gives zeros, finite arguments give numbers."},
 {"property": "C113", "status": "proved", "theorems": ["Irspack.Props.C113_groups_combine", "Irspack.Props.C113_between", "Irspack.Props.C113_invalid_users", "Irspack.Props.C113_order", "Irspack.Props.C113_entropy_counterexample"], "note": "Proved for evaluations of score chunks, which by C10 are also those of matrices and models. The diversity metrics do not combine: C113_entropy_counterexample."},
 {"property": "C114", "status": "proved", "theorems": ["Irspack.Props.C114_fewer_candidates", "Irspack.Props.C114_order_counterexample"], "note": "The order of two models is not preserved: C114_order_counterexample."},
 {"property": "C115", "status": "proved", "theorems": ["Irspack.Props.C115_no_overtaking", "Irspack.Props.C115_better_scores", "Irspack.Props.C115_relative_order"], "note": ""},
 {"property": "C116", "status": "proved", "theorems": ["Irspack.Props.C116_more_truth", "Irspack.Props.C116_recall_counterexample", "Irspack.Props.C116_new_user_counterexample"], "note": "What does not hold: C116_recall_counterexample, C116_new_user_counterexample."},
 {"property": "C117", "status": "proved", "theorems": ["Irspack.Props.C117_changed_users", "Irspack.Props.C117_added_users", "Irspack.Props.C117_appeared_items"], "note": "The bound is attained by the example beside the theorems."},
 {"property": "C118", "status": "proved", "theorems": ["Irspack.Props.C118_chance", "Irspack.Props.C118_chance_hit", "Irspack.Props.C118_chance_map", "Irspack.Props.C118_chance_capped", "Irspack.Props.C118_chance_ndcg"], "note": "Orders without ties; all items recommendable and none masked."},
 {"property": "C119", "status": "proved", "theorems": ["Irspack.Props.C119_perfect", "Irspack.Props.C119_ceiling", "Irspack.Props.C119_inf_counterexample"], "note": "All items recommendable and none masked; the ceiling needs scores other than -inf (C119_inf_counterexample)."},
 {"property": "C120", "status": "proved", "theorems": ["Irspack.Props.C120_raised_item", "Irspack.Props.C120_raised_item_new_users", "Irspack.Props.C120_raised_item_single", "Irspack.Props.C120_inf_counterexample"], "note": "The rise is strict after conversion to the type in which the scores are sorted: with equal scores the order is unspecified."}
]}
