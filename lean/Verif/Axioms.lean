import Verif.Props.Aliasing
import Verif.Props.Builders
import Verif.Props.Catalogue
import Verif.Props.Ceiling
import Verif.Props.Chance
import Verif.Props.ChanceMap
import Verif.Props.ChanceNdcg
import Verif.Props.Concurrency
import Verif.Props.Cutoff
import Verif.Props.DataFrame
import Verif.Props.Datasets
import Verif.Props.Direction
import Verif.Props.DirectionUsers
import Verif.Props.Doubling
import Verif.Props.Download
import Verif.Props.EarlyStop
import Verif.Props.Ease
import Verif.Props.Evaluator
import Verif.Props.Evidence
import Verif.Props.Fair
import Verif.Props.FewerCandidates
import Verif.Props.FloatEval
import Verif.Props.FloatIals
import Verif.Props.FloatSim
import Verif.Props.Groups
import Verif.Props.Holdout
import Verif.Props.IalsArgs
import Verif.Props.IalsCold
import Verif.Props.IalsConverge
import Verif.Props.IalsConvergeFeatures
import Verif.Props.IalsFeature
import Verif.Props.IalsInit
import Verif.Props.IalsLoss
import Verif.Props.IalsState
import Verif.Props.IalsStep
import Verif.Props.IalsTraining
import Verif.Props.Influence
import Verif.Props.Interrupt
import Verif.Props.LibRecommender
import Verif.Props.Memory
import Verif.Props.MemoryCold
import Verif.Props.Mind
import Verif.Props.MindReaders
import Verif.Props.MoreTruth
import Verif.Props.MultVAE
import Verif.Props.Named
import Verif.Props.NanArgs
import Verif.Props.NanScores
import Verif.Props.NanServing
import Verif.Props.NewProfile
import Verif.Props.Overtake
import Verif.Props.Paging
import Verif.Props.PagingForbid
import Verif.Props.ParamRange
import Verif.Props.Pickle
import Verif.Props.PyEvaluator
import Verif.Props.RaisedItem
import Verif.Props.RandomState
import Verif.Props.Raw
import Verif.Props.RecClasses
import Verif.Props.Relabel
import Verif.Props.RelabelIals
import Verif.Props.RelabelModels
import Verif.Props.RelabelTopK
import Verif.Props.Retrieval
import Verif.Props.RetrievalBest
import Verif.Props.SampleData
import Verif.Props.Scale
import Verif.Props.Score
import Verif.Props.ScoreHistory
import Verif.Props.Sensitivity
import Verif.Props.Separate
import Verif.Props.SeparateIals
import Verif.Props.Served
import Verif.Props.Silent
import Verif.Props.SimRecommender
import Verif.Props.Similarity
import Verif.Props.Slim
import Verif.Props.SlimConverge
import Verif.Props.SlimDrift
import Verif.Props.SlimRepro
import Verif.Props.SpecificHoldout
import Verif.Props.Split
import Verif.Props.SplitTypes
import Verif.Props.Tables
import Verif.Props.Threads
import Verif.Props.TuneLearns
import Verif.Props.TuneTrial
import Verif.Props.Tuning
import Verif.Props.Twins
import Verif.Props.TwinsIals
import Verif.Props.UserHoldout
import Verif.Props.Validation
import Verif.Props.Walk
import Verif.Props.Weighting
import Verif.Props.WorkerFaults
import Verif.Props.Workflow
import Verif.Props.Zeros
import Verif.Props.ZipParts

/-! Axioms used by every property theorem; generated by tools/manifest.py. -/

#print axioms Irspack.Aliasing.C99_recommender
#print axioms Irspack.Aliasing.C99_evaluator
#print axioms Irspack.Aliasing.C99_mask_partial
#print axioms Irspack.Aliasing.C99_mask_counterexample
#print axioms Irspack.Aliasing.C99_cold_partial
#print axioms Irspack.Aliasing.C99_cold_counterexample
#print axioms Irspack.Aliasing.C99_pair_partial
#print axioms Irspack.Aliasing.C99_pair_counterexample
#print axioms Irspack.Aliasing.C99_in_place
#print axioms Irspack.Aliasing.C99_native_value
#print axioms Irspack.Aliasing.C99_features_partial
#print axioms Irspack.Aliasing.C99_features_counterexample
#print axioms Irspack.Aliasing.C99_two_models_counterexample
#print axioms Irspack.Props.C78_model_config
#print axioms Irspack.Props.C78_solver_config
#print axioms Irspack.Props.C78_refused
#print axioms Irspack.Props.C78_order
#print axioms Irspack.Props.C78_other_builders
#print axioms Irspack.Props.C78_recommender
#print axioms Irspack.Props.C78_configs_of_the_model
#print axioms Irspack.Props.C78_names
#print axioms Irspack.Props.C78_features_need_another_solver
#print axioms Irspack.Catalogue.C101_genres_partial
#print axioms Irspack.Catalogue.C101_genres_unnumbered
#print axioms Irspack.Catalogue.C101_genre_blank_counterexample
#print axioms Irspack.Catalogue.C101_genre_order_counterexample
#print axioms Irspack.Catalogue.C101_release_year
#print axioms Irspack.Catalogue.C101_release_years
#print axioms Irspack.Catalogue.C101_item_meta
#print axioms Irspack.Catalogue.C101_amazon_partial
#print axioms Irspack.Catalogue.C101_amazon_quiet
#print axioms Irspack.Catalogue.C101_amazon_eval_counterexample
#print axioms Irspack.Props.C119_perfect
#print axioms Irspack.Props.C119_ceiling
#print axioms Irspack.Props.C119_inf_counterexample
#print axioms Irspack.Props.C118_chance
#print axioms Irspack.Props.C118_chance_hit
#print axioms Irspack.Props.C118_chance_map
#print axioms Irspack.Props.C118_chance_capped
#print axioms Irspack.Props.C118_chance_ndcg
#print axioms Irspack.Props.C01_each_row_exactly_once
#print axioms Irspack.Props.C01_never_twice_never_outside
#print axioms Irspack.Props.C01_bounded_steps
#print axioms Irspack.Props.C01_terminates
#print axioms Irspack.Props.C01_shared_result_is_sequential
#print axioms Irspack.Props.C01_merged_accumulators_are_the_sum
#print axioms Irspack.Props.C01_each_row_once_if_one_worker_runs
#print axioms Irspack.Props.C02_threaded_product_is_matrix_product
#print axioms Irspack.Props.C02_zero_threads_rejected
#print axioms Irspack.Props.C02_threaded_product_returns
#print axioms Irspack.Props.C93_evaluated_list_is_prefix
#print axioms Irspack.Props.C93_chunks_larger_cutoff
#print axioms Irspack.Props.C93_chunks_metrics_ordered
#print axioms Irspack.Props.C93_model_larger_cutoff
#print axioms Irspack.Props.C93_recall_flag
#print axioms Irspack.Props.C93_one_relevant_item
#print axioms Irspack.Props.C93_precision_ndcg_recall_fall_counterexample
#print axioms Irspack.Props.C93_recommend_known_users
#print axioms Irspack.Props.C93_recommend_known_user
#print axioms Irspack.Props.C16_frame_report_partial
#print axioms Irspack.Props.C16_frame_report_without_repetitions
#print axioms Irspack.Props.C16_late_hit_undefined
#print axioms Irspack.Props.C16_late_hit_counterexample
#print axioms Irspack.Props.C16_only_user_lists_matter
#print axioms Irspack.Props.C16_ground_truth_order_does_not_matter
#print axioms Irspack.Props.C16_unit_interval
#print axioms Irspack.Props.C16_repeated_recommendation_counterexample
#print axioms Irspack.Props.C16_zero_threads_counterexample
#print axioms Irspack.Datasets.C67_test_data
#print axioms Irspack.Datasets.C67_labels
#print axioms Irspack.Datasets.C67_repeated_user_counterexample
#print axioms Irspack.Datasets.C67_no_pair
#print axioms Irspack.Datasets.C67_no_negatives
#print axioms Irspack.Datasets.C68_interactions
#print axioms Irspack.Datasets.C68_blank_line_counterexample
#print axioms Irspack.Datasets.C69_ratings
#print axioms Irspack.Datasets.C69_genres
#print axioms Irspack.Props.C107_top_k
#print axioms Irspack.Props.C107_top_k_walk
#print axioms Irspack.Props.C107_shrinkage
#print axioms Irspack.Props.C107_shrinkage_ignored
#print axioms Irspack.Props.C107_rp3_beta
#print axioms Irspack.Props.C107_dense_slim_reg
#print axioms Irspack.Props.C107_edlae
#print axioms Irspack.Props.C107_slim_alpha_partial
#print axioms Irspack.Ials.C107_ials_reg
#print axioms Irspack.Ials.C107_ials_alpha0
#print axioms Irspack.Props.C107_top_k_users
#print axioms Irspack.Props.C107_shrinkage_users
#print axioms Irspack.Tuning.C58_terminates
#print axioms Irspack.Tuning.C58_zero_never_returns
#print axioms Irspack.Tuning.C58_empty
#print axioms Irspack.Tuning.C58_result
#print axioms Irspack.Tuning.C58_best_dimension
#print axioms Irspack.Tuning.C58_neighbourhood
#print axioms Irspack.Tuning.C58_scale_zero
#print axioms Irspack.Tuning.C58_tie_counterexample
#print axioms Irspack.Tuning.C58_zero_counterexample
#print axioms Irspack.Download.C57_archives_complete
#print axioms Irspack.Download.C57_manager_reads_complete
#print axioms Irspack.Download.C57_restart
#print axioms Irspack.Download.C57_no_leftovers
#print axioms Irspack.Download.C57_truncated_response_counterexample
#print axioms Irspack.Download.C57_generic_crash_counterexample
#print axioms Irspack.Download.C57_arguments
#print axioms Irspack.Download.C65_token
#print axioms Irspack.Download.C65_argument_kept_partial
#print axioms Irspack.Download.C65_token_leak_counterexample
#print axioms Irspack.Download.C57_http_errors
#print axioms Irspack.EarlyStop.C51_best_state
#print axioms Irspack.EarlyStop.C51_best_view
#print axioms Irspack.EarlyStop.C51_evaluated_again
#print axioms Irspack.EarlyStop.C51_returns_iff
#print axioms Irspack.EarlyStop.C51_nothing_usable
#print axioms Irspack.EarlyStop.C51_stale_state_counterexample
#print axioms Irspack.EarlyStop.C51_history
#print axioms Irspack.EarlyStop.C52_patience
#print axioms Irspack.EarlyStop.C52_reports
#print axioms Irspack.EarlyStop.C52_pruned
#print axioms Irspack.EarlyStop.C52_at_most_max_epoch
#print axioms Irspack.EarlyStop.C52_validate_epoch_zero
#print axioms Irspack.EarlyStop.C52_order_of_calls
#print axioms Irspack.EarlyStop.C53_learn
#print axioms Irspack.EarlyStop.C53_no_learnt_epochs
#print axioms Irspack.EarlyStop.C53_retrain
#print axioms Irspack.EarlyStop.C53_retrain_view
#print axioms Irspack.Props.C40_dense_slim_optimal
#print axioms Irspack.Props.C40_edlae_optimal
#print axioms Irspack.Props.C40_edlae_without_dropout
#print axioms Irspack.Props.C40_edlae_full_dropout
#print axioms Irspack.Props.C03_parallel_equals_sequential
#print axioms Irspack.Props.C03_thread_count_does_not_matter
#print axioms Irspack.Props.C03_ground_truth_cache_partial
#print axioms Irspack.Props.C03_ground_truth_cache_counterexample
#print axioms Irspack.Props.C04_evaluated_list_is_top_cutoff
#print axioms Irspack.Props.C04_top_cutoff_is_unique
#print axioms Irspack.Props.C12_user_accounting
#print axioms Irspack.Props.C05_metrics_in_unit_interval
#print axioms Irspack.Props.C06_ndcg_one_iff
#print axioms Irspack.Props.C06_hit_one_iff
#print axioms Irspack.Props.C06_zero_iff
#print axioms Irspack.Props.C07_swap_up
#print axioms Irspack.Props.C08_C09_only_ranking_matters
#print axioms Irspack.Props.C08_other_scores_have_no_influence
#print axioms Irspack.Props.C08_excluded_items_never_recommended
#print axioms Irspack.Props.C09_monotone_transform
#print axioms Irspack.Props.C13_diversity_values
#print axioms Irspack.Props.C13_diversity_bounds
#print axioms Irspack.Props.C13_gini_extremes
#print axioms Irspack.Props.C15_get_metrics_rejects_bad_arguments
#print axioms Irspack.Props.C15_parallel_rejects_bad_arguments
#print axioms Irspack.Props.C15_no_threads
#print axioms Irspack.Props.C15_constructor_accepts_iff
#print axioms Irspack.Props.C106_jaccard
#print axioms Irspack.Props.C106_tversky
#print axioms Irspack.Props.C106_asymmetric_partial
#print axioms Irspack.Props.C106_cosine_partial
#print axioms Irspack.Props.C106_knn_scores
#print axioms Irspack.Props.C106_walk_scores
#print axioms Irspack.Props.C106_top_pop
#print axioms Irspack.Props.C106_cosine_counterexample
#print axioms Irspack.Props.C106_tfidf_counterexample
#print axioms Irspack.NewProfile.C106_ials_counterexample
#print axioms Irspack.Props.C105_rowwise
#print axioms Irspack.Props.C105_each_interaction
#print axioms Irspack.Props.C105_mean
#print axioms Irspack.Props.C105_users
#print axioms Irspack.Props.C105_each_user
#print axioms Irspack.Props.C105_specific
#print axioms Irspack.Props.C105_specific_each
#print axioms Irspack.Props.C114_fewer_candidates
#print axioms Irspack.Props.C114_order_counterexample
#print axioms Irspack.Props.C75_accuracy_metrics
#print axioms Irspack.Props.C75_batches
#print axioms Irspack.Props.C75_relative_error
#print axioms Irspack.Props.C75_thread_counts
#print axioms Irspack.Props.C75_hits
#print axioms Irspack.Props.C75_gini
#print axioms Irspack.Props.C75_entropy
#print axioms Irspack.Props.C75_double
#print axioms Irspack.Props.C75_bitwise_counterexample
#print axioms Irspack.Props.C79_any_order
#print axioms Irspack.Props.C79_gram
#print axioms Irspack.Props.C79_gram_total
#print axioms Irspack.Props.C79_residual
#print axioms Irspack.Props.C79_near_optimal
#print axioms Irspack.Props.C79_items_near_optimal
#print axioms Irspack.Props.C79_threads
#print axioms Irspack.Props.C79_succeeds
#print axioms Irspack.Props.C79_scores
#print axioms Irspack.Props.C79_scores_refused
#print axioms Irspack.Props.C79_ranking
#print axioms Irspack.Props.C79_single
#print axioms Irspack.Props.C79_single_accepts
#print axioms Irspack.Props.C79_bitwise_counterexample
#print axioms Irspack.Props.C97_threads
#print axioms Irspack.Props.C97_threads_learn
#print axioms Irspack.Props.C97_relative_error
#print axioms Irspack.Props.C97_item_similarity
#print axioms Irspack.Props.C97_user_similarity
#print axioms Irspack.Props.C97_top_k
#print axioms Irspack.Props.C97_p3
#print axioms Irspack.Props.C97_rp3
#print axioms Irspack.Props.C97_scores
#print axioms Irspack.Props.C97_toppop
#print axioms Irspack.Props.C113_groups_combine
#print axioms Irspack.Props.C113_between
#print axioms Irspack.Props.C113_invalid_users
#print axioms Irspack.Props.C113_order
#print axioms Irspack.Props.C113_entropy_counterexample
#print axioms Irspack.Props.C28_frame_to_matrix
#print axioms Irspack.Props.C28_succeeds_iff
#print axioms Irspack.Props.C28_total_weight
#print axioms Irspack.Props.C29_accepts_iff
#print axioms Irspack.Props.C29_rejects_with_value_error
#print axioms Irspack.Props.C29_all_is_sum
#print axioms Irspack.Props.C29_concat
#print axioms Irspack.Props.C29_concat_item_ids_counterexample
#print axioms Irspack.Props.C29_frame_partial
#print axioms Irspack.Props.C29_explicit_zero_counterexample
#print axioms Irspack.Props.C84_learn
#print axioms Irspack.Props.C84_learn_with_features
#print axioms Irspack.Props.C84_learnt_loss
#print axioms Irspack.Props.C84_learn_succeeds
#print axioms Irspack.Props.C84_refused
#print axioms Irspack.Ials.C45_cold_user_minimises
#print axioms Irspack.Ials.C45_cold_user_cg
#print axioms Irspack.Ials.C45_own_row_only
#print axioms Irspack.Ials.C45_empty_profile_zero
#print axioms Irspack.Ials.C45_matches_training
#print axioms Irspack.Ials.C45_cold_scores
#print axioms Irspack.Ials.C45_cold_user_succeeds
#print axioms Irspack.Ials.C45_wrong_width
#print axioms Irspack.Ials.C45_cold_item_minimises
#print axioms Irspack.Ials.C46_block_scores
#print axioms Irspack.Ials.C46_block_equals_indexed
#print axioms Irspack.Ials.C46_get_score
#print axioms Irspack.Ials.C46_invalid_ranges
#print axioms Irspack.Ials.C81_loss_converges
#print axioms Irspack.Ials.C81_bounded
#print axioms Irspack.Ials.C81_movement_paid
#print axioms Irspack.Ials.C81_movement_any_solver
#print axioms Irspack.Ials.C81_rate
#print axioms Irspack.Ials.C81_changes_vanish
#print axioms Irspack.Ials.C81_limits_optimal
#print axioms Irspack.Ials.C81_limits_exist
#print axioms Irspack.Ials.C81_cg_stops
#print axioms Irspack.Ials.C81_runs_exist
#print axioms Irspack.Ials.C81_features_bounded
#print axioms Irspack.Ials.C81_features_movement_paid
#print axioms Irspack.Ials.C81_features_rate
#print axioms Irspack.Ials.C81_features_changes_vanish
#print axioms Irspack.Ials.C81_features_limits_optimal
#print axioms Irspack.Ials.C81_features_limits_exist
#print axioms Irspack.Ials.C81_features_runs_exist
#print axioms Irspack.Ials.C81_features_cg_stops
#print axioms Irspack.Ials.C47_user_weights_optimal
#print axioms Irspack.Ials.C47_item_weights_optimal
#print axioms Irspack.Ials.C47_halves_never_increase
#print axioms Irspack.Ials.C47_epoch_never_increases
#print axioms Irspack.Ials.C47_cholesky_users_optimal
#print axioms Irspack.Ials.C47_cholesky_items_optimal
#print axioms Irspack.Ials.C47_warmup
#print axioms Irspack.Ials.C47_epoch_succeeds
#print axioms Irspack.Ials.C47_predicted
#print axioms Irspack.Ials.C47_empty_history_user
#print axioms Irspack.Ials.C47_empty_history_item
#print axioms Irspack.Ials.C47_from_features_only
#print axioms Irspack.Ials.C47_empty_history_accepted
#print axioms Irspack.Ials.C47_from_features_accepted
#print axioms Irspack.Ials.C47_additional_items
#print axioms Irspack.Ials.C47_scores_from_features
#print axioms Irspack.Ials.C47_cold_user_with_features
#print axioms Irspack.Ials.C47_rejections
#print axioms Irspack.Ials.C47_cold_rejections
#print axioms Irspack.Ials.C80_initial
#print axioms Irspack.Ials.C80_prefix
#print axioms Irspack.Ials.C80_same_numbers
#print axioms Irspack.Ials.C80_reproducible
#print axioms Irspack.Ials.C80_uninitialised
#print axioms Irspack.Ials.C80_uninitialised_counterexample
#print axioms Irspack.Ials.C41_loss_is_documented
#print axioms Irspack.Ials.C41_loss_of_reached
#print axioms Irspack.Ials.C41_observed_iff_nonzero
#print axioms Irspack.Ials.C41_loss_deterministic
#print axioms Irspack.Ials.C41_zero_threads
#print axioms Irspack.Ials.C44_batched_gram
#print axioms Irspack.Ials.C44_buffer_in_bounds
#print axioms Irspack.Ials.C44_user_system
#print axioms Irspack.Ials.C44_shared_gram
#print axioms Irspack.Ials.C48_config_roundtrip
#print axioms Irspack.Ials.C48_solver_config_roundtrip
#print axioms Irspack.Ials.C48_trainer_pickle
#print axioms Irspack.Ials.C48_unknown_processors
#print axioms Irspack.Ials.C48_old_pickle
#print axioms Irspack.Ials.C48_malformed_state
#print axioms Irspack.Ials.C48_save_load
#print axioms Irspack.Ials.C48_save_load_loss
#print axioms Irspack.Ials.C48_load_without_weights
#print axioms Irspack.Ials.C49_same_total_weight
#print axioms Irspack.Ials.C49_unchanged
#print axioms Irspack.Ials.C49_defined
#print axioms Irspack.Ials.C49_no_interactions
#print axioms Irspack.Ials.C42_epoch_never_increases_partial
#print axioms Irspack.Ials.C42_user_half_never_increases_partial
#print axioms Irspack.Ials.C42_item_half_never_increases_partial
#print axioms Irspack.Ials.C42_epoch_regularised
#print axioms Irspack.Ials.C42_cholesky_users_optimal
#print axioms Irspack.Ials.C42_cholesky_items_optimal
#print axioms Irspack.Ials.C42_subspace_descent_no_stall
#print axioms Irspack.Ials.C42_cg_no_stall
#print axioms Irspack.Ials.C42_cholesky_empty_row_error
#print axioms Irspack.Ials.C42_subspace_empty_row_counterexample
#print axioms Irspack.Ials.C43_system_is_optimality
#print axioms Irspack.Ials.C43_cg_solves_users
#print axioms Irspack.Ials.C43_cg_solves_items
#print axioms Irspack.Ials.C43_cg_near_optimum
#print axioms Irspack.Ials.C43_more_steps
#print axioms Irspack.Ials.C43_orthogonal_residuals
#print axioms Irspack.Ials.C62_epoch
#print axioms Irspack.Ials.C62_training
#print axioms Irspack.Ials.C62_user_scores
#print axioms Irspack.Ials.C62_embeddings
#print axioms Irspack.Ials.C62_cold_scores
#print axioms Irspack.Ials.C62_cold_scores_item_features
#print axioms Irspack.Ials.C62_learn
#print axioms Irspack.Ials.C62_training_succeeds
#print axioms Irspack.Ials.C51_ials
#print axioms Irspack.Ials.C53_ials
#print axioms Irspack.Props.C98_cosine_items
#print axioms Irspack.Props.C98_asymmetric_items
#print axioms Irspack.Props.C98_jaccard_items
#print axioms Irspack.Props.C98_tversky_items
#print axioms Irspack.Props.C98_p3
#print axioms Irspack.Props.C98_rp3
#print axioms Irspack.Props.C98_cosine_users
#print axioms Irspack.Props.C98_asymmetric_users
#print axioms Irspack.Props.C98_toppop
#print axioms Irspack.Props.C98_top_k_counterexample
#print axioms Irspack.Interrupt.C102_similarity
#print axioms Irspack.Interrupt.C102_similarity_ends
#print axioms Irspack.Interrupt.C102_walks_partial
#print axioms Irspack.Interrupt.C102_walks_uninterrupted
#print axioms Irspack.Interrupt.C102_walks_counterexample
#print axioms Irspack.Interrupt.C102_svd_partial
#print axioms Irspack.Interrupt.C102_svd_counterexample
#print axioms Irspack.Interrupt.C102_svd_lost
#print axioms Irspack.Interrupt.C102_nmf_partial
#print axioms Irspack.Interrupt.C102_epochs_partial
#print axioms Irspack.Interrupt.C102_epochs_uninterrupted
#print axioms Irspack.Interrupt.C102_epochs_counterexample
#print axioms Irspack.Interrupt.C102_load
#print axioms Irspack.Interrupt.C102_load_counterexample
#print axioms Irspack.Props.C83_slim
#print axioms Irspack.Props.C83_slim_not_whole
#print axioms Irspack.Props.C83_slim_weights
#print axioms Irspack.Props.C83_dense_slim
#print axioms Irspack.Props.C83_edlae
#print axioms Irspack.Props.C83_truncated_svd
#print axioms Irspack.Props.C83_nmf
#print axioms Irspack.Props.C83_bpr
#print axioms Irspack.Props.C83_multvae
#print axioms Irspack.Props.C83_unknown_argument
#print axioms Irspack.Memory.C70_chunks_memory
#print axioms Irspack.Memory.C70_chunks_untouched
#print axioms Irspack.Memory.C70_chunks_values
#print axioms Irspack.Memory.C70_chunks_raise
#print axioms Irspack.Memory.C70_matrix
#print axioms Irspack.Memory.C70_model_partial
#print axioms Irspack.Memory.C70_retrieval
#print axioms Irspack.Memory.C70_retrieval_writes
#print axioms Irspack.Memory.C70_model_counterexample
#print axioms Irspack.Memory.C70_retrieval_counterexample
#print axioms Irspack.Memory.C70_cold_model_partial
#print axioms Irspack.Memory.C70_cold_narrow
#print axioms Irspack.Memory.C70_cold_model_counterexample
#print axioms Irspack.Mind.C59_member
#print axioms Irspack.Mind.C59_impressions
#print axioms Irspack.Mind.C59_meaning_unique
#print axioms Irspack.Mind.C59_positions
#print axioms Irspack.Mind.C59_errors
#print axioms Irspack.Mind.C59_interactions
#print axioms Irspack.Mind.C59_splits
#print axioms Irspack.Mind.C59_file
#print axioms Irspack.Mind.C59_blank_impressions_counterexample
#print axioms Irspack.Mind.C59_repeated_id_counterexample
#print axioms Irspack.Mind.C59_items
#print axioms Irspack.Mind.C59_entities
#print axioms Irspack.Mind.C59_read
#print axioms Irspack.Mind.C59_read_rejections
#print axioms Irspack.Mind.C59_read_interactions
#print axioms Irspack.Mind.C59_embeddings
#print axioms Irspack.Mind.C59_trailing_tab_counterexample
#print axioms Irspack.Props.C116_more_truth
#print axioms Irspack.Props.C116_recall_counterexample
#print axioms Irspack.Props.C116_new_user_counterexample
#print axioms Irspack.MultVAE.C63_epoch
#print axioms Irspack.MultVAE.C63_annealing
#print axioms Irspack.MultVAE.C63_training_errors
#print axioms Irspack.MultVAE.C63_l2_regularizer_ignored
#print axioms Irspack.MultVAE.C63_loss_nonneg
#print axioms Irspack.MultVAE.C63_cold_scores
#print axioms Irspack.MultVAE.C63_own_profile_only
#print axioms Irspack.MultVAE.C63_score_formula
#print axioms Irspack.MultVAE.C63_objective
#print axioms Irspack.MultVAE.C63_known_users
#print axioms Irspack.MultVAE.C63_restored_scores
#print axioms Irspack.Evaluation.Named.C77_report
#print axioms Irspack.Evaluation.Named.C77_errors
#print axioms Irspack.Evaluation.Named.C77_labels
#print axioms Irspack.Evaluation.Named.C77_target_names
#print axioms Irspack.Evaluation.Named.C77_target
#print axioms Irspack.Evaluation.Named.C77_history
#print axioms Irspack.NanArgs.C112_refused_partial
#print axioms Irspack.NanArgs.C112_walks_refused_partial
#print axioms Irspack.NanArgs.C112_slim_refused
#print axioms Irspack.NanArgs.C112_ratio_refused
#print axioms Irspack.NanArgs.C112_nan_counterexample
#print axioms Irspack.NanArgs.C112_nan_alpha_counterexample
#print axioms Irspack.NanArgs.C112_infinite_alpha_counterexample
#print axioms Irspack.NanArgs.C112_infinite_shrinkage
#print axioms Irspack.NanArgs.C112_finite
#print axioms Irspack.NanArgs.C112_nan_walk_counterexample
#print axioms Irspack.NanArgs.C112_walk_finite
#print axioms Irspack.Nan.C103_defined_iff
#print axioms Irspack.Nan.C103_defined_iff_cpp20
#print axioms Irspack.Nan.C103_retrieval_defined_iff
#print axioms Irspack.Nan.C103_undefined_counterexample
#print axioms Irspack.Nan.C103_numbers
#print axioms Irspack.Nan.C103_all_nan
#print axioms Irspack.Nan.C103_retrieval_all_nan
#print axioms Irspack.Nan.C103_retrieval_masked_counterexample
#print axioms Irspack.NanArgs.C112_nan_scores_counterexample
#print axioms Irspack.NanArgs.C112_finite_scores
#print axioms Irspack.NanArgs.C112_nan_evaluated_counterexample
#print axioms Irspack.NewProfile.C104_by_value
#print axioms Irspack.NewProfile.C104_single
#print axioms Irspack.NewProfile.C104_ials_order
#print axioms Irspack.NewProfile.C104_ials_amounts_partial
#print axioms Irspack.NewProfile.C104_ials_counterexample
#print axioms Irspack.Props.C115_no_overtaking
#print axioms Irspack.Props.C115_better_scores
#print axioms Irspack.Props.C115_relative_order
#print axioms Irspack.Props.C110_rows_alone
#print axioms Irspack.Props.C110_users_alone
#print axioms Irspack.Props.C110_batches_concatenate
#print axioms Irspack.Props.C110_pages_known_users
#print axioms Irspack.Props.C110_pages_new_users
#print axioms Irspack.Props.C110_pages_known_user
#print axioms Irspack.Props.C110_forbidding_unlisted
#print axioms Irspack.Props.C110_shards
#print axioms Irspack.Props.C110_repeated_allowed_counterexample
#print axioms Irspack.Props.C110_forbidding_listed
#print axioms Irspack.Tuning.C55_names_partial
#print axioms Irspack.Tuning.C55_names_counterexample
#print axioms Irspack.Tuning.C55_ranges
#print axioms Irspack.Tuning.C55_nan_counterexample
#print axioms Irspack.Props.C88_core_history
#print axioms Irspack.Props.C88_core_cache
#print axioms Irspack.Props.C88_evaluator
#print axioms Irspack.Props.C88_multvae_trainer
#print axioms Irspack.Props.C10_chunking_does_not_matter
#print axioms Irspack.Props.C10_matrix_equals_chunks
#print axioms Irspack.Props.C10_model_equals_matrix
#print axioms Irspack.Props.C11_row_mismatch_rejected
#print axioms Irspack.Props.C15_python_constructor
#print axioms Irspack.Props.C12_C04_C08_C13_chunk_report
#print axioms Irspack.Props.C05_C13_python_bounds
#print axioms Irspack.Props.C08_masked_scores_have_no_influence
#print axioms Irspack.Props.C14_multiple_cutoffs
#print axioms Irspack.Props.C14_joint_succeeds
#print axioms Irspack.Props.C15_cold_constructor
#print axioms Irspack.Props.C17_cold_items_score_minus_inf
#print axioms Irspack.Props.C17_report
#print axioms Irspack.Props.C120_raised_item
#print axioms Irspack.Props.C120_raised_item_new_users
#print axioms Irspack.Props.C120_raised_item_single
#print axioms Irspack.Props.C120_inf_counterexample
#print axioms Irspack.RandomState.C76_seed_partial
#print axioms Irspack.RandomState.C76_generator_partial
#print axioms Irspack.RandomState.C76_isolated
#print axioms Irspack.RandomState.C76_history_partial
#print axioms Irspack.RandomState.C76_models
#print axioms Irspack.RandomState.C76_rejects
#print axioms Irspack.RandomState.C76_processes_partial
#print axioms Irspack.RandomState.C76_set_order_counterexample
#print axioms Irspack.RandomState.C76_multvae_counterexample
#print axioms Irspack.Props.C74_evaluator_partial
#print axioms Irspack.Props.C74_score_width_counterexample
#print axioms Irspack.Props.C74_strided_counterexample
#print axioms Irspack.Props.C74_lists_partial
#print axioms Irspack.Props.C74_lists_result
#print axioms Irspack.Props.C74_lists_rejected
#print axioms Irspack.Props.C74_repeated_recommendation_counterexample
#print axioms Irspack.Props.C74_retrieval
#print axioms Irspack.Props.C74_split_ratio
#print axioms Irspack.Props.C74_split_fixed
#print axioms Irspack.Props.C74_split_bound_needed
#print axioms Irspack.Props.C74_weighting
#print axioms Irspack.Props.C74_weighting_bound_needed
#print axioms Irspack.Props.C74_top_k
#print axioms Irspack.Props.C74_ials
#print axioms Irspack.Props.C74_ials_transform
#print axioms Irspack.Props.C74_unpickled_trainer_counterexample
#print axioms Irspack.Props.C74_product_partial
#print axioms Irspack.Props.C74_product_counterexample
#print axioms Irspack.RecClasses.C72_constructor
#print axioms Irspack.RecClasses.C72_unknown_argument
#print axioms Irspack.RecClasses.C72_from_config
#print axioms Irspack.RecClasses.C72_config_accepted
#print axioms Irspack.RecClasses.C72_unknown_field
#print axioms Irspack.RecClasses.C72_other_config
#print axioms Irspack.RecClasses.C72_same_partial
#print axioms Irspack.RecClasses.C72_agreeing
#print axioms Irspack.RecClasses.C72_defaults_counterexample
#print axioms Irspack.RecClasses.C72_ials_solver_counterexample
#print axioms Irspack.RecClasses.C72_tune_range
#print axioms Irspack.RecClasses.C72_tune_range_offers
#print axioms Irspack.RecClasses.C72_checks
#print axioms Irspack.RecClasses.C72_by_name
#print axioms Irspack.RecClasses.C72_found
#print axioms Irspack.RecClasses.C72_exported_names
#print axioms Irspack.Evaluation.C87_evaluation
#print axioms Irspack.Evaluation.C87_ties_counterexample
#print axioms Irspack.Split.C87_log_order
#print axioms Irspack.Ials.C87_ials_loss
#print axioms Irspack.Ials.C87_ials_epoch
#print axioms Irspack.Ials.C87_ials_training
#print axioms Irspack.Ials.C87_ials_features
#print axioms Irspack.Props.C87_cosine_items
#print axioms Irspack.Props.C87_asymmetric_items
#print axioms Irspack.Props.C87_jaccard_items
#print axioms Irspack.Props.C87_tversky_items
#print axioms Irspack.Props.C87_cosine_users
#print axioms Irspack.Props.C87_asymmetric_users
#print axioms Irspack.Props.C87_p3
#print axioms Irspack.Props.C87_rp3
#print axioms Irspack.Props.C87_dense_slim
#print axioms Irspack.Props.C87_edlae
#print axioms Irspack.Props.C87_slim_solution
#print axioms Irspack.Props.C87_item_scores
#print axioms Irspack.Props.C87_user_scores
#print axioms Irspack.Props.C87_top_pop
#print axioms Irspack.Props.C60_untied_items
#print axioms Irspack.Props.C60_untied_users
#print axioms Irspack.Props.C87_item_knn_top_k
#print axioms Irspack.Props.C87_user_knn_top_k
#print axioms Irspack.Props.C61_untied_columns
#print axioms Irspack.Props.C87_walk_top_k
#print axioms Irspack.Props.C87_top_k_ties_counterexample
#print axioms Irspack.Props.C18_batch_is_top_cutoff
#print axioms Irspack.Props.C18_rejects_bad_arguments
#print axioms Irspack.Props.C18_threads_partial
#print axioms Irspack.Props.C18_compiled_argument_check
#print axioms Irspack.Props.C18_threads_counterexample
#print axioms Irspack.Props.C18_single_precision_counterexample
#print axioms Irspack.Props.C19_single_agrees_with_batch
#print axioms Irspack.Props.C19_cutoff_zero_and_infinite_scores_counterexample
#print axioms Irspack.Props.C20_known_user
#print axioms Irspack.Props.C20_known_users_batch
#print axioms Irspack.Props.C20_new_user
#print axioms Irspack.Props.C20_new_users_batch
#print axioms Irspack.Props.C21_created_iff_distinct
#print axioms Irspack.Props.C21_index_round_trip
#print axioms Irspack.Props.C21_profile_matrix
#print axioms Irspack.Props.C21_batch_rows
#print axioms Irspack.Props.C20_known_users_best
#print axioms Irspack.Props.C20_new_users_best
#print axioms Irspack.Props.C20_known_user_best
#print axioms Irspack.Props.C20_new_user_best
#print axioms Irspack.Props.C20_rejected
#print axioms Irspack.SampleData.C71_data
#print axioms Irspack.SampleData.C71_density_met
#print axioms Irspack.SampleData.C71_search_ends
#print axioms Irspack.Props.C90_jaccard
#print axioms Irspack.Props.C90_tversky
#print axioms Irspack.Props.C90_p3
#print axioms Irspack.Props.C90_rp3
#print axioms Irspack.Props.C90_cosine_items
#print axioms Irspack.Props.C90_cosine_users
#print axioms Irspack.Props.C90_asymmetric_items
#print axioms Irspack.Props.C90_asymmetric_users
#print axioms Irspack.Props.C90_unnormalized
#print axioms Irspack.Props.C90_dense_slim
#print axioms Irspack.Props.C90_edlae
#print axioms Irspack.Props.C90_slim
#print axioms Irspack.Props.C90_ials_loss
#print axioms Irspack.Props.C90_ials_training
#print axioms Irspack.Props.C90_scores
#print axioms Irspack.Props.C90_top_pop
#print axioms Irspack.Props.C90_cosine_counterexample
#print axioms Irspack.Props.C90_ials_nu_counterexample
#print axioms Irspack.Props.C90_cg_counterexample
#print axioms Irspack.Score.C50_remove_seen
#print axioms Irspack.Score.C50_remove_seen_index_error
#print axioms Irspack.Score.C50_remove_seen_block
#print axioms Irspack.Score.C50_remove_seen_cold
#print axioms Irspack.Score.C50_remove_seen_errors
#print axioms Irspack.Score.C50_similarity_score
#print axioms Irspack.Score.C50_similarity_block
#print axioms Irspack.Score.C50_similarity_block_beyond
#print axioms Irspack.Score.C50_similarity_cold
#print axioms Irspack.Score.C50_similarity_index_error
#print axioms Irspack.Score.C50_similarity_before_learn
#print axioms Irspack.Score.C50_similarity_remove_seen
#print axioms Irspack.Score.C50_user_similarity
#print axioms Irspack.Score.C50_top_pop
#print axioms Irspack.Score.C50_embedding
#print axioms Irspack.Score.C50_embedding_handed_out
#print axioms Irspack.Score.C50_embedding_errors
#print axioms Irspack.Score.C50_embedding_cold
#print axioms Irspack.Score.C50_nmf
#print axioms Irspack.Score.C50_truncated_components
#print axioms Irspack.Score.C50_similarity_evaluated
#print axioms Irspack.Score.C50_top_pop_evaluated
#print axioms Irspack.Tuning.Shared.C64_genuine
#print axioms Irspack.Tuning.Shared.C64_complete_partial
#print axioms Irspack.Tuning.Shared.C64_lost_update_counterexample
#print axioms Irspack.Props.C117_changed_users
#print axioms Irspack.Props.C117_added_users
#print axioms Irspack.Props.C117_appeared_items
#print axioms Irspack.Props.C96_cosine_items
#print axioms Irspack.Props.C96_asymmetric_items
#print axioms Irspack.Props.C96_jaccard_items
#print axioms Irspack.Props.C96_tversky_items
#print axioms Irspack.Props.C96_p3
#print axioms Irspack.Props.C96_rp3
#print axioms Irspack.Props.C96_cosine_users
#print axioms Irspack.Props.C96_asymmetric_users
#print axioms Irspack.Props.C96_dense_slim
#print axioms Irspack.Props.C96_edlae
#print axioms Irspack.Props.C96_slim_solution
#print axioms Irspack.Props.C96_top_pop_counterexample
#print axioms Irspack.Props.C96_bm25_counterexample
#print axioms Irspack.Ials.C96_ials_counterexample
#print axioms Irspack.Props.C109_evaluated_is_served_partial
#print axioms Irspack.Props.C109_report_of_served
#print axioms Irspack.Props.C109_one_user_partial
#print axioms Irspack.Props.C109_new_users_partial
#print axioms Irspack.Props.C109_ties_counterexample
#print axioms Irspack.Props.C109_single_precision_counterexample
#print axioms Irspack.Props.C109_both_restrictions_counterexample
#print axioms Irspack.Props.C92_users_item_knn
#print axioms Irspack.Props.C92_users_item_recommenders
#print axioms Irspack.Props.C92_users_user_knn
#print axioms Irspack.Props.C92_users_user_recommenders
#print axioms Irspack.Props.C92_users_walks
#print axioms Irspack.Props.C92_users_top_pop
#print axioms Irspack.Props.C92_users_linear
#print axioms Irspack.Props.C92_users_scores
#print axioms Irspack.Props.C92_items_item_knn
#print axioms Irspack.Props.C92_items_item_recommenders
#print axioms Irspack.Props.C92_items_user_recommenders
#print axioms Irspack.Props.C92_items_top_pop
#print axioms Irspack.Props.C92_items_walks
#print axioms Irspack.Props.C92_users_slim
#print axioms Irspack.Props.C92_users_slim_counterexample
#print axioms Irspack.Props.C92_users_weighting_counterexample
#print axioms Irspack.Props.C92_users_ials_loss
#print axioms Irspack.Props.C92_users_ials_training
#print axioms Irspack.Props.C92_users_ials_nu_counterexample
#print axioms Irspack.Props.C82_feature_weighting
#print axioms Irspack.Props.C82_cosine_items
#print axioms Irspack.Props.C82_asymmetric_items
#print axioms Irspack.Props.C82_jaccard_items
#print axioms Irspack.Props.C82_tversky_items
#print axioms Irspack.Props.C82_cosine_users
#print axioms Irspack.Props.C82_asymmetric_users
#print axioms Irspack.Props.C82_rp3
#print axioms Irspack.Props.C82_p3
#print axioms Irspack.Props.C82_out_of_range
#print axioms Irspack.Props.C82_unknown_argument
#print axioms Irspack.Props.C82_unknown_weighting
#print axioms Irspack.Props.C82_negative_exponents
#print axioms Irspack.Props.C33_top_k_best
#print axioms Irspack.Props.C33_rows_sorted
#print axioms Irspack.Props.C34_threads_and_chunks
#print axioms Irspack.Props.C34_succeeds_iff
#print axioms Irspack.Props.C35_formulas
#print axioms Irspack.Props.C35_cosine_range
#print axioms Irspack.Props.C35_set_range
#print axioms Irspack.Props.C35_symmetric
#print axioms Irspack.Props.C35_tversky_is_jaccard
#print axioms Irspack.Props.C35_asymmetric_half_is_cosine
#print axioms Irspack.Props.C35_shrinkage
#print axioms Irspack.Props.C37_coordinate_minimiser_partial
#print axioms Irspack.Props.C37_never_increases_partial
#print axioms Irspack.Props.C37_longer_is_not_worse_partial
#print axioms Irspack.Props.C37_exact_test_is_lossless
#print axioms Irspack.Props.C37_iterations_partial
#print axioms Irspack.Props.C37_weights_are_visits
#print axioms Irspack.Props.C37_learned_loss_partial
#print axioms Irspack.Props.C38_fixed_point_optimal_partial
#print axioms Irspack.Props.C38_documented_problem_solved_partial
#print axioms Irspack.Props.C39_zero_diagonal_partial
#print axioms Irspack.Props.C39_nonnegative
#print axioms Irspack.Props.C39_at_most_top_k
#print axioms Irspack.Props.C39_short_columns_complete_partial
#print axioms Irspack.Props.C37_lost_updates_counterexample
#print axioms Irspack.Props.C39_top_k_counterexample
#print axioms Irspack.Props.C86_stopped_gap
#print axioms Irspack.Props.C86_sweep_partial
#print axioms Irspack.Props.C86_enough_sweeps_partial
#print axioms Irspack.Props.C86_recommender_partial
#print axioms Irspack.Props.C86_distance
#print axioms Irspack.Props.C86_optimum
#print axioms Irspack.Props.C86_converges_partial
#print axioms Irspack.Props.C37_lossless_means_nothing_dropped
#print axioms Irspack.Props.C37_near_minimiser
#print axioms Irspack.Props.C37_bounded_increase
#print axioms Irspack.Props.C37_bounded_total
#print axioms Irspack.Props.C37_learned_loss_bound
#print axioms Irspack.Props.C38_near_optimal
#print axioms Irspack.Props.C38_stopped_near_optimal
#print axioms Irspack.Props.C89_assignment
#print axioms Irspack.Props.C89_one_thread
#print axioms Irspack.Props.C89_single_block
#print axioms Irspack.Props.C89_first_block
#print axioms Irspack.Props.C89_schedule_counterexample
#print axioms Irspack.Props.C89_width_counterexample
#print axioms Irspack.Props.C89_distance_partial
#print axioms Irspack.Props.C27_partition_by_flag
#print axioms Irspack.Props.C27_succeeds_iff
#print axioms Irspack.Props.C27_sizes
#print axioms Irspack.Props.C27_no_holdout_fails
#print axioms Irspack.Props.C22_conserves
#print axioms Irspack.Props.C22_sums_back
#print axioms Irspack.Props.C22_fractional_values_counterexample
#print axioms Irspack.Props.C23_ratio_sizes
#print axioms Irspack.Props.C23_fixed_sizes
#print axioms Irspack.Props.C23_accepts_iff
#print axioms Irspack.Props.C23_extreme_ratios
#print axioms Irspack.Props.C24_time_split
#print axioms Irspack.Props.C111_sums_back_iff
#print axioms Irspack.Props.C111_values_kept
#print axioms Irspack.Props.C111_small_types
#print axioms Irspack.Props.C111_type_kept
#print axioms Irspack.Props.C111_wide_integers_counterexample
#print axioms Irspack.Props.C111_unsigned_counterexample
#print axioms Irspack.Tables.C66_rows
#print axioms Irspack.Tables.C66_too_long
#print axioms Irspack.Tables.C66_long_first_line_counterexample
#print axioms Irspack.Tables.C66_quote_counterexample
#print axioms Irspack.Tables.C66_open_quote_counterexample
#print axioms Irspack.Threads.C56_explicit
#print axioms Irspack.Threads.C56_environment
#print axioms Irspack.Threads.C56_fallback
#print axioms Irspack.Threads.C56_literal_unique
#print axioms Irspack.Props.C72_tuned_knn_learns
#print axioms Irspack.Props.C72_tuned_others_learn
#print axioms Irspack.Props.C91_item_knn
#print axioms Irspack.Props.C91_user_knn
#print axioms Irspack.Props.C91_walks
#print axioms Irspack.Props.C91_linear
#print axioms Irspack.Props.C91_slim
#print axioms Irspack.Props.C91_truncated_svd
#print axioms Irspack.Props.C91_nmf
#print axioms Irspack.Props.C91_ials
#print axioms Irspack.Props.C91_study
#print axioms Irspack.Props.C91_tune_cosine
#print axioms Irspack.Tuning.C54_fixed_override
#print axioms Irspack.Tuning.C54_default_suggestion
#print axioms Irspack.Tuning.C54_best
#print axioms Irspack.Tuning.C54_errors
#print axioms Irspack.Tuning.C54_tune
#print axioms Irspack.Tuning.C54_reported_was_used
#print axioms Irspack.Tuning.C54_fixed_not_reported_partial
#print axioms Irspack.Tuning.C54_history
#print axioms Irspack.Tuning.C54_direction_counterexample
#print axioms Irspack.Tuning.C54_custom_suggestion_counterexample
#print axioms Irspack.Tuning.C54_recorded_name_counterexample
#print axioms Irspack.Props.C95_users_item_based
#print axioms Irspack.Props.C95_top_pop
#print axioms Irspack.Props.C95_remove_seen
#print axioms Irspack.Props.C95_cosine_items
#print axioms Irspack.Props.C95_asymmetric_items
#print axioms Irspack.Props.C95_jaccard_items
#print axioms Irspack.Props.C95_tversky_items
#print axioms Irspack.Props.C95_p3
#print axioms Irspack.Props.C95_rp3
#print axioms Irspack.Props.C95_dense_slim
#print axioms Irspack.Props.C95_edlae
#print axioms Irspack.Props.C95_slim_solution
#print axioms Irspack.Props.C95_cosine_users
#print axioms Irspack.Props.C95_asymmetric_users
#print axioms Irspack.Props.C95_mult_vae
#print axioms Irspack.Props.C95_top_k_counterexample
#print axioms Irspack.Ials.C95_ials_cholesky
#print axioms Irspack.Ials.C95_ials_new_users
#print axioms Irspack.Ials.C95_ials_training
#print axioms Irspack.Ials.C95_ials_cg_counterexample
#print axioms Irspack.Props.C25_partition_without_leakage
#print axioms Irspack.Props.C25_succeeds
#print axioms Irspack.Props.C26_sizes_partial
#print axioms Irspack.Props.C26_rejects_oversized
#print axioms Irspack.Props.C26_explicit_test_users_ignored_counterexample
#print axioms Irspack.Props.C26_ratio_overflow_counterexample
#print axioms Irspack.Props.C26_double_rounding_counterexample
#print axioms Irspack.EarlyStop.C85_retrain
#print axioms Irspack.EarlyStop.C85_silent_scoring
#print axioms Irspack.MultVAE.C85_multvae_keys
#print axioms Irspack.MultVAE.C85_multvae_learn
#print axioms Irspack.MultVAE.C85_multvae_partial
#print axioms Irspack.MultVAE.C85_multvae_counterexample
#print axioms Irspack.Props.C36_p3_random_walk
#print axioms Irspack.Props.C36_rows_are_distributions
#print axioms Irspack.Props.C36_rp3_penalises_popularity
#print axioms Irspack.Props.C36_beta_zero
#print axioms Irspack.Props.C36_normalized_rows
#print axioms Irspack.Props.C36_rejects_negative
#print axioms Irspack.Props.C61_columns_are_top_k
#print axioms Irspack.Props.C60_item_similarity_partial
#print axioms Irspack.Props.C60_rows_are_top_k_partial
#print axioms Irspack.Props.C60_column_wise_counterexample
#print axioms Irspack.Props.C60_user_similarity_partial
#print axioms Irspack.Props.C60_user_rows_are_top_k_partial
#print axioms Irspack.Props.C30_remove_diagonal
#print axioms Irspack.Props.C30_idempotent
#print axioms Irspack.Props.C30_rejects_non_square
#print axioms Irspack.Props.C31_same_pattern
#print axioms Irspack.Props.C31_bm25_formula
#print axioms Irspack.Props.C31_bm25_bounds
#print axioms Irspack.Props.C31_bm25_increasing
#print axioms Irspack.Props.C31_tf_idf
#print axioms Irspack.Props.C32_entries
#print axioms Irspack.Props.C32_rows_sum_to_one
#print axioms Irspack.Props.C32_ratios
#print axioms Irspack.WorkerFaults.C108_value_is_whole
#print axioms Irspack.WorkerFaults.C108_failure_raised
#print axioms Irspack.WorkerFaults.C108_no_false_alarm
#print axioms Irspack.WorkerFaults.C108_threads_partial
#print axioms Irspack.WorkerFaults.C108_threads_terminate
#print axioms Irspack.WorkerFaults.C108_other_rows
#print axioms Irspack.WorkerFaults.C108_each_row
#print axioms Irspack.WorkerFaults.C108_retrieve_partial
#print axioms Irspack.WorkerFaults.C108_retrieve_counterexample
#print axioms Irspack.WorkerFaults.C108_ground_truth_partial
#print axioms Irspack.WorkerFaults.C108_ground_truth_counterexample
#print axioms Irspack.WorkerFaults.C108_simplification
#print axioms Irspack.WorkerFaults.C108_similarity_blocks
#print axioms Irspack.Props.C73_training_data
#print axioms Irspack.Props.C73_concat
#print axioms Irspack.Props.C73_validation_report
#print axioms Irspack.Props.C73_test_report
#print axioms Irspack.Props.C73_cold_report
#print axioms Irspack.Props.C73_fractional_rating_counterexample
#print axioms Irspack.Props.C94_values
#print axioms Irspack.Props.C94_scores
#print axioms Irspack.Props.C94_masks
#print axioms Irspack.Props.C94_linear
#print axioms Irspack.Props.C94_slim
#print axioms Irspack.Props.C94_knn_partial
#print axioms Irspack.Props.C94_knn_recommenders_partial
#print axioms Irspack.Props.C94_walks_partial
#print axioms Irspack.Props.C94_ials_training_partial
#print axioms Irspack.Props.C94_ials_loss_partial
#print axioms Irspack.Props.C94_jaccard_counterexample
#print axioms Irspack.Props.C94_weighting_counterexample
#print axioms Irspack.Props.C94_walks_counterexample
#print axioms Irspack.Props.C94_ials_loss_counterexample
#print axioms Irspack.Props.C94_evaluator_counterexample
#print axioms Irspack.Props.C94_split_counterexample
#print axioms Irspack.ZipParts.C100_neumf_partial
#print axioms Irspack.ZipParts.C100_neumf_counterexample
#print axioms Irspack.ZipParts.C100_amazon_partial
#print axioms Irspack.ZipParts.C100_amazon_counterexample
#print axioms Irspack.ZipParts.C100_kept
#print axioms Irspack.ZipParts.C100_killed
#print axioms Irspack.ZipParts.C100_attempt
