{
 "C03": {
  "status": "partial",
  "note": "The metric computation is proved for every schedule. The constructor's parallel region builds the ground-truth sets with std::async without a launch policy: C03_ground_truth_cache_partial needs at least one worker to run, and C03_ground_truth_cache_counterexample shows what happens if none does."
 },
 "C18": {
  "status": "partial",
  "note": "The retrieved lists are proved for every input and every schedule in which at least one std::async worker runs (C18_threads_partial); C18_threads_counterexample shows the all-deferred case. C18_single_precision_counterexample shows that float32 scores are compared in single precision."
 },
 "C22": {
  "note": "As stated, for integer-valued matrices. C22_fractional_values_counterexample shows what happens to fractional values."
 },
 "C26": {
  "status": "partial",
  "note": "Exact sizes in exact arithmetic under the hypotheses in C26_sizes_partial. The code violates the full statement in three ways, each with a counterexample theorem: explicit n_test_user ignored, ratio overflow not rejected, and double rounding (49 users)."
 },
 "C29": {
  "status": "partial",
  "note": "Proved except for explicitly stored zeros, for which df_train/df_test raise: C29_explicit_zero_counterexample."
 },
 "C37": {
  "status": "partial",
  "note": "Descent and coordinate-wise exactness hold as long as no non-zero change falls under the tolerance of Eigen's isZero (always, if that test were exact). With any positive tolerance the claim is false: C37_lost_updates_counterexample. For every tolerance the damage is bounded: C37_near_minimiser, C37_bounded_increase, C37_bounded_total, C37_learned_loss_bound; the bound for one update is attained."
 },
 "C38": {
  "status": "partial",
  "note": "Exact optimality is proved for states reached without dropping a small non-zero change (see C37). For every tolerance, and for the stopping rule that is used, C38_near_optimal and C38_stopped_near_optimal bound the distance from optimality."
 },
 "C39": {
  "status": "partial",
  "note": "Non-negativity and 'at most top_k' hold always; zero diagonal without top_k; columns with at most top_k coefficients are complete. With top_k the shared sort buffer leaks entries of other columns, even onto the diagonal: C39_top_k_counterexample."
 },
 "C42": {
  "status": "partial",
  "note": "Proved for every solver, thread count and interleaving whenever the half-epoch ends without exception and non-finite numbers; C42_epoch_regularised shows that it does when every row has positive regularisation. With the iALS++ solver, alpha0 = 0, nu != 0 and a row without interactions the code computes 0/0: C42_subspace_empty_row_counterexample."
 },
 "C60": {
  "status": "partial",
  "note": "Every kept weight is the documented similarity and every row keeps its top_k best; the documented column-wise top_k is violated by the item-based recommenders: C60_column_wise_counterexample."
 },
 "C54": {
  "status": "partial",
  "note": "Overriding, sampling, best trial, errors and history are proved. 'Fixed parameters are not reported' is proved for the default suggestion when training records no fixed name (C54_fixed_not_reported_partial) and false otherwise: two counterexample theorems. C54_direction_counterexample: handed a study that maximises, tuning returns the parameters of a trial with the least score."
 },
 "C58": {
  "note": "As stated with its exceptions: exploration, termination and the result are proved; C58_zero_counterexample and C58_tie_counterexample show the two exceptions named in the statement. Optuna gives pruned trials their last reported value, which the code includes in the comparison: C58_result says so, C58_best_dimension is for a pruner that stops only trials worse than a completed one."
 },
 "C64": {
  "status": "partial",
  "note": "Genuineness is proved for all schedules; completeness for non-overlapping updates; C64_lost_update_counterexample shows the lost update."
 },
 "C57": {
  "status": "partial",
  "note": "Proved for every history of MIND downloads provided that a response that ends without an exception is whole; the code does not check this and C57_truncated_response_counterexample shows what follows. C57_generic_crash_counterexample shows the failure of the generic downloader named in the statement. Power failure is not modelled."
 },
 "C65": {
  "status": "partial",
  "note": "Choice of the token proved for Hugging Face; C65_token_leak_counterexample: the token of the environment is sent to Azure."
 },
 "C59": {
  "status": "partial",
  "note": "Proved for rows with impressions that are not blank; C59_blank_impressions_counterexample and C59_repeated_id_counterexample show a row without an item and impressions of two readers under one id. Numeric conversion of identifiers is not modelled; embedding lines with a trailing tab are a counterexample of their own."
 },
 "C66": {
  "status": "partial",
  "note": "Proved for tables without quotation marks at the start of a field and without lines longer than the first; pandas' tokenizer is modelled by its documented state machine (trusted). The counterexample theorems show the exceptions in the statement."
 },
 "C67": {
  "status": "partial",
  "note": "C67_test_data is for all well-formed files; the labels are as stated when no user has two lines, C67_repeated_user_counterexample otherwise. Malformed lines: C67_no_pair, C67_no_negatives."
 },
 "C68": {
  "note": "As stated with its exception: an equivalence for all files without blank lines; C68_blank_line_counterexample shows what happens on blank lines."
 },
 "C69": {
  "note": "For ratings whose fields contain no colon, quotation mark or white space. Conversion to numbers and dates is not modelled."
 },
 "C70": {
  "status": "partial",
  "note": "Matrix and block evaluation as stated. A model's storage is unchanged when its scoring methods hand out new arrays (as all recommenders of irspack do); C70_model_counterexample: a model answering with slices of a stored matrix has it overwritten with -inf. Retrieval leaves the array unchanged without forbidden items; C70_retrieval_counterexample: with forbidden items their scores in the caller's array are overwritten and a later call misses them. The same for EvaluatorWithColdUser: C70_cold_model_partial and C70_cold_model_counterexample; with cold items in the evaluation a model that covers the warm items only is never written to, whatever it returns (C70_cold_narrow)."
 },
 "C71": {
  "note": "Exact real arithmetic; the random draws are arguments."
 },
 "C72": {
  "status": "partial",
  "note": "All as stated except that configuration and constructor build the same recommender only where their defaults agree. C72_defaults_counterexample: the default configurations of BPRFM (train_epochs 512), iALS (alpha0 1) and Mult-VAE (train_epochs 512) differ from the constructors' defaults (128, 0, 300). C72_ials_solver_counterexample: IALSConfig rejects the solver IALSPP and its block size. Arguments have the declared types; checks that involve the data are not modelled."
 },
 "C73": {
  "note": "Composes the models of the split (C25), the stacked matrices, the score API (C50) and the evaluators (C10, C12). Training itself enters only through the scores; exact arithmetic for scores and metrics. C73_fractional_rating_counterexample shows that the condition on ratings is needed."
 },
 "C16": {
  "note": "Proved for every pair of frames in which no user has a hit at a position at or beyond the number of distinct items, in particular whenever no user is recommended an item twice (C16_frame_report_without_repetitions). Otherwise the native code reads outside its discount table: C16_late_hit_undefined, C16_late_hit_counterexample."
 },
 "C74": {
  "note": "Proved without restriction for retrieval, the split, BM25/TF-IDF (matrices with column indices in range), top-k truncation and reached iALS trainers. Partial for the evaluator (needs a contiguous score matrix with one column per item; C74_score_width_counterexample, C74_strided_counterexample), for lists (exact condition in C74_lists_partial; C74_repeated_recommendation_counterexample) and for the sparse product (needs matching dimensions; C74_product_counterexample). C74_unpickled_trainer_counterexample: compute_loss after unpickling."
 },
 "C75": {
  "note": "Relative error per operation and of the logarithms as hypothesis, met by rounding to nearest with 53 digits (C75_double); exponent range, overflow and underflow are not modelled. C75_bitwise_counterexample shows why a tolerance is needed."
 },
 "C55": {
  "note": "Names and ranges proved as stated, except that a name with a trailing newline is accepted (C55_names_counterexample) and NaN bounds are accepted (C55_nan_counterexample)."
 },
 "C76": {
  "note": "Proved for every process state and history, with the order of Python sets as a parameter of the process. Partial: for the user hold-out the order of a set of items (hash-randomised strings) changes which interactions are held out for the same seed (C76_set_order_counterexample), and Mult-VAE training draws from numpy's global generator (C76_multvae_counterexample). SLIM and iALS draws are in C++ generators and not part of this claim; the bits of the generators are abstract."
 },
 "C78": {
  "note": "nanobind's conversions are modelled from its documentation: integers in range for size_t and int, floats or integers for Real, enumeration members by type. Both possible results of a setter (same object, copy) are covered."
 },
 "C79": {
  "note": "Eigen's LLT enters by a backward-stability contract (Higham, theorem 10.4) and, for success, by acceptance of matrices that are definite with a margin (theorem 10.7). Overflow, underflow and NaN are not modelled; the cursor of prepare_p counts blocks of 16 rows; nu is assumed non-negative and u at most 1/8. The conjugate-gradient and iALS++ solvers and priors are not covered by this claim."
 },
 "C80": {
  "note": "Exact real arithmetic for the training, as in C42 and C62; with rounding, C79 shows that bits can differ with the number of threads. C80_uninitialised_counterexample: init_std = 0 is accepted and then the initial embeddings are whatever memory held."
 },
 "C81": {
  "note": "Exact real arithmetic, so \"nothing changes any more\" is a statement about exact conjugate gradients with the cut-off 1e-20 of the code. Feature-aware training (theorems C81_features_*) has the same results for the Cholesky and conjugate-gradient solvers; iALS++ refuses features."
 },
 "C82": {
  "note": "Exact real arithmetic. A Python bool given for a number, or a number for a bool, is refused by the model. The row-wise meaning of top_k is what C60 proves (the documentation says column-wise)."
 },
 "C83": {
  "note": "scikit-learn, LightFM, haiku and optax are arbitrary functions of what they are asked for. The bound on the SLIM loss is for exact arithmetic and isZero tolerance 0, as in C37."
 },
 "C84": {
  "note": "C84_learn, C84_learn_with_features: training in terms of the named settings; C84_learnt_loss, C84_learn_succeeds: meaning and totality; C84_refused: errors. Exact arithmetic; values of the wrong type are refused at construction in the model."
 },
 "C85": {
  "note": "Holds for trainers that scoring leaves alone (iALS, BPR) and for changes that training does not see (C85_retrain, C85_silent_scoring). Mult-VAE: scoring takes random keys that the next updates would have used; C85_multvae_keys says which, C85_multvae_partial covers the cases where this has no influence, C85_multvae_counterexample refutes the claim in general."
 },
 "C86": {
  "note": "Partial: the contraction, the bound on the sweeps and the limit assume an exact zero test; with Eigen's tolerance 1e-5 updates are lost and the loss need not decrease (C37_lost_updates_counterexample). C86_stopped_gap (the guarantee of the stopping rule) covers every tolerance."
 },
 "C87": {
  "note": "C87_ties_counterexample shows that equal scores are ranked by item number, so ties are excepted in C87_evaluation. Neighbourhoods and walks of any top_k are covered where no two neighbours are equally similar (C87_item_knn_top_k, C87_user_knn_top_k, C87_walk_top_k); with ties the kept neighbours depend on the numbers (C87_top_k_ties_counterexample). Feature weightings assume positive stored values, iALS that no zeros are stored."
 },
 "C88": {
  "note": "The workers that fill the cache are assumed to run (C03 says what happens when the runtime defers all of them). Pickling of iALS trainers is C48, what an unpickled iALS trainer cannot do any more C74.",
  "status": "proved"
 },
 "C48": {
  "note": "Where std::thread::hardware_concurrency() returns 0 (number not known), C48_unknown_processors shows that no trainer can be unpickled."
 },
 "C89": {
  "note": "Counter-examples: with two threads the learnt weights depend on the schedule (C89_schedule_counterexample), and they depend on the SIMD width of the build (C89_width_counterexample). C89_distance_partial is stated for an exact zero test, as C86. Exact arithmetic."
 },
 "C90": {
  "note": "Exact arithmetic. The converse (what happens without conversion) is shown by the three counter-examples.",
  "status": "proved"
 },
 "C91": {
  "note": "Sampler: any function that answers requests with values within them (Optuna's contract). TruncatedSVD, NMF and the linear solvers as in C83 and C81 (library contract). BPR and Mult-VAE train in external libraries and are not covered."
 },
 "C92": {
  "note": "Defects or surprises recorded as counterexamples: SLIM multiplies its penalties by the number of users, also inactive ones (C92_users_slim_counterexample); TF-IDF and BM25 count all users (C92_users_weighting_counterexample); the regularisation of items in iALS counts all users unless nu = 0 (C92_users_ials_nu_counterexample). The iALS++ solver is not covered: it does not reset the embeddings of users without interactions. In the implementation the initial item embeddings also depend on the number of users through the shared random stream (C80); the theorem takes equal initial embeddings.",
  "status": "proved"
 },
 "C93": {
  "note": "Spec/Cutoff.lean states both comparisons (GrowsWith, MetricsOrdered) on the fields of the returned dictionary. Entropy and Gini index are not compared. Retrieval is stated for known users (batch and single); single calls need a cutoff of at least 1 (C19)."
 },
 "C94": {
  "note": "Proved for scores and masks, TopPop, DenseSLIM, EDLAE, SLIM, the cosine and asymmetric cosine neighbourhoods, P3alpha and RP3beta (alpha > 0, every user and item with a non-zero value, no normalize_weight) and iALS (iALS++ loss, nu = 0). The claim fails in the code, with proved counterexamples, for Jaccard and Tversky, TF-IDF and BM25, the walks with alpha = 0 or with a user or item that has only zeros (0/0), the original iALS loss and nu != 0 (the default), the ground truth of the evaluator, and the rowwise split."
 },
 "C95": {
  "note": "Holds as stated. Two counterexamples are proved: top_k = 1 and the conjugate-gradient solver with one step."
 },
 "C96": {
  "note": "BM25 weighting, TopPop and iALS violate the property by design; each has a counterexample theorem."
 },
 "C97": {
  "note": "Feature weighting and normalize_weight are not rounded; overflow, underflow and NaN are outside the model. `1 - alpha` must be representable (Sterbenz: true for alpha in [1/2, 1])."
 },
 "C98": {
  "note": "Real arithmetic. BM25 is not local (C96_bm25_counterexample). The smaller top_k is refuted by C98_top_k_counterexample, as the statement says."
 },
 "C99": {
  "note": "partial: sharing of masked_interactions, input_interaction, X_train and X_test, and corruption of unsorted float64 features, are proved as counterexamples; the rules by which scipy shares buffers and nanobind sorts indices are taken from those libraries and not from /repo"
 },
 "C100": {
  "note": "partial: the empty NeuMF test table and the unreadable Amazon metadata after one failed download are proved as counterexamples; concurrent processes are not modelled here"
 },
 "C101": {
  "note": "partial: genre names with blanks, genre files in another order, and the execution of downloaded lines are proved as counterexamples; conversion of columns to numbers and dates is not modelled"
 },
 "C102": {
  "note": "Partial because the code violates the full statement: P3alpha/RP3beta with normalize_weight=True, TruncatedSVD with differing fits, the recommenders with epochs and load_state of iALS (counterexamples proved). C102_walks_uninterrupted, C102_epochs_uninterrupted and C102_load connect the step lists with the models of learn() used by the other claims. Interruptions during learn_with_optimizer with an evaluator are in C51_history."
 },
 "C103": {
  "note": "The condition is exact (iff) for the C++17 comparison of pairs, for the C++20 one and for retrieval; it is the strict weak ordering the standard requires, so where it fails nothing is claimed about the result. cutoff 0 is the business of C19.",
  "status": "proved"
 },
 "C104": {
  "note": "C104_ials_amounts_partial: only for the iALS++ loss with nu = 0 and no confidence scaling; C104_ials_counterexample shows that the original loss, nu = 1 and the logarithmic scaling violate it. Weights are assumed non-negative (positive for the partial theorem).",
  "status": "partial"
 },
 "C105": {
  "note": "The shuffles are idealised: uniform and independent. The generators (numpy's RandomState, std::mt19937 with std::shuffle) and the effect of their seed are not modelled."
 },
 "C106": {
  "note": "Proved for Jaccard and Tversky on all data, for both cosines on plain interaction data without feature weighting (C106_cosine_partial, C106_asymmetric_partial), and for the scores of the nearest-neighbour and random-walk recommenders. What is missing is false of the code: C106_cosine_counterexample (different strengths make the cosine of two items fall although a further user joins them), C106_tfidf_counterexample (the smoothed TF-IDF weight of an item everybody has used is negative, so every added interaction lowers its score) and C106_ials_counterexample."
 },
 "C107": {
  "note": "Proved for top_k, shrinkage, beta, reg, dropout_p, and reg and alpha0 of the Cholesky solver of iALS. For alpha of SLIM it is proved of the limits of training (C107_slim_alpha_partial); missing is what C86 misses, the inexact zero test of the code."
 },
 "C108": {
  "note": "Full for the nine routines that collect their workers and for the nearest-neighbour computers: C108_value_is_whole, C108_failure_raised, C108_no_false_alarm, C108_other_rows, C108_each_row, C108_similarity_blocks. C108_simplification shows that the simpler regions used elsewhere in the model lose nothing. Partial because the code violates the property in the other seven: retrieval and the evaluator's ground truth swallow failures (C108_retrieve_counterexample, C108_ground_truth_counterexample; C108_retrieve_partial and C108_ground_truth_partial say which users are still right), and plain threads end the process (C108_threads_partial, C108_threads_terminate)."
 },
 "C109": {
  "note": "Partial because ties, single-precision collisions and doubled restrictions make the two paths differ (counterexamples proved)."
 },
 "C110": {
  "note": "All parts proved for lists of allowed items without repeats; C110_repeated_allowed_counterexample shows that with an ID given twice the pages differ from the longer list. Page, shard and single-user statements use exact comparison of the scores as served (after the conversion to single precision in batch calls)."
 },
 "C111": {
  "note": "The iff is proved for all types; the documentation's unrestricted promise fails (C111_wide_integers_counterexample, C111_unsigned_counterexample, and fractions in C22). Overflow, subnormals, NaN are not modelled."
 },
 "C112": {
  "note": "Partial: NaN passes the checks of the nearest-neighbour and random-walk computers (C112_nan_counterexample, C112_nan_alpha_counterexample, C112_nan_walk_counterexample), an infinite Tversky alpha gives NaN (C112_infinite_alpha_counterexample). Proved: exact refusal for arguments other than NaN, for SLIM and the split ratio with NaN included, infinite shrinkage gives zeros, finite arguments give numbers."
 },
 "C113": {
  "note": "Proved for evaluations of score chunks, which by C10 are also those of matrices and models. The diversity metrics do not combine: C113_entropy_counterexample."
 },
 "C114": {
  "note": "The order of two models is not preserved: C114_order_counterexample."
 },
 "C116": {
  "note": "What does not hold: C116_recall_counterexample, C116_new_user_counterexample."
 },
 "C117": {
  "note": "The bound is attained by the example beside the theorems."
 },
 "C118": {
  "note": "Orders without ties; all items recommendable and none masked."
 },
 "C119": {
  "note": "All items recommendable and none masked; the ceiling needs scores other than -inf (C119_inf_counterexample)."
 },
 "C120": {
  "note": "The rise is strict after conversion to the type in which the scores are sorted: with equal scores the order is unspecified."
 }
}