{"id": "C01", "title": "Parallel work is done exactly once under every schedule", "statement": "Every multi-threaded routine that hands out rows (or row blocks) through a shared counter processes each row exactly once, never a row outside the matrix, and always finishes, whatever the number of threads, the block size and the interleaving of the threads.", "quantifier": "all row counts, positive thread counts, positive block sizes, and all interleavings of the workers' steps", "why_tests_cant": "tests see a handful of schedules and sizes; a lost or duplicated block at a boundary or under a rare interleaving is invisible to them", "anchors": ["cpp_source/util.hpp:parallel_sparse_product", "cpp_source/util.hpp:retrieve_recommend_from_score", "cpp_source/evaluator.cpp:EvaluatorCore::get_metrics", "cpp_source/evaluator.cpp:EvaluatorCore::cache_X_map", "cpp_source/als/IALSTrainer.hpp:Solver::prepare_p", "cpp_source/als/IALSTrainer.hpp:user_scores"]}
{"id": "C02", "title": "Threaded sparse product equals the matrix product", "statement": "sparse_mm_threaded(A, B, n_threads) returns exactly the dense product A·B for every n_threads >= 1 and every schedule; n_threads = 0 is rejected.", "quantifier": "all matrices over a commutative semiring/ring, all thread counts, all schedules", "why_tests_cant": "thread schedules and boundary row counts (multiples of 16 or not) cannot be enumerated", "anchors": ["cpp_source/util.hpp:parallel_sparse_product"]}
{"id": "C03", "title": "Evaluation metrics do not depend on the number of threads", "statement": "For fixed ground truth and scores, every metric returned by the evaluator (in exact arithmetic) is the same for every n_threads >= 1 and every scheduling of the worker threads, and equals the sequential row-by-row evaluation.", "quantifier": "all score matrices, ground truths, thread counts and schedules", "why_tests_cant": "non-determinism from scheduling shows up rarely; tests compare two thread counts on one input", "anchors": ["cpp_source/evaluator.cpp:EvaluatorCore::get_metrics", "cpp_source/evaluator.cpp:Metrics::merge"]}
{"id": "C04", "title": "Evaluated recommendation list is the true top-cutoff", "statement": "The list evaluated for a user is the cutoff best-scored recommendable items whose score is not -inf, in decreasing score order, ties broken by smaller item index, without repetition; if fewer candidates exist, all of them.", "quantifier": "all score rows (any tie pattern, any -inf positions), recommendable sets and cutoffs", "why_tests_cant": "tie patterns and -inf positions are combinatorial", "anchors": ["cpp_source/evaluator.cpp:EvaluatorCore::get_metrics_local"]}
{"id": "C05", "title": "Accuracy metrics stay within [0, 1]", "statement": "hit, precision, recall, ndcg and map returned by the Evaluator are all in [0, 1] for every ground truth, score matrix, mask, recommendable items, cutoff and recall definition.", "quantifier": "all inputs the evaluator accepts", "why_tests_cant": "a bound over all inputs; tests check samples", "anchors": ["cpp_source/evaluator.cpp:Metrics::update", "cpp_source/evaluator.cpp:Metrics::as_dict"]}
{"id": "C06", "title": "Metric extremes mean what they say", "statement": "A user's nDCG is 1 exactly when the top min(#ground truth, #recommended) recommended items are all relevant; hit is 1 exactly when at least one recommended item is relevant; every accuracy metric is 0 exactly when no recommended item is relevant.", "quantifier": "all recommendation lists without repetition and all non-empty relevant sets", "why_tests_cant": "an equivalence over all lists", "anchors": ["cpp_source/evaluator.cpp:Metrics::update"]}
{"id": "C07", "title": "Swapping a relevant item up never lowers a ranking metric", "statement": "Moving a relevant item one place up past an irrelevant one never decreases nDCG and MAP (strictly increases both), and leaves hit, precision, recall and the diversity metrics unchanged.", "quantifier": "all recommendation lists, positions and ground truths", "why_tests_cant": "monotonicity over all pairs of lists", "anchors": ["cpp_source/evaluator.cpp:Metrics::update"]}
{"id": "C08", "title": "Non-recommendable, masked and -inf items never influence evaluation", "statement": "Metrics are unchanged by arbitrary changes of the scores at masked (user,item) positions or at items outside the recommendable set, and such items are never counted as recommended.", "quantifier": "all pairs of score matrices that agree on the unmasked recommendable positions", "why_tests_cant": "a non-interference (two-run) property over all inputs", "anchors": ["cpp_source/evaluator.cpp:get_metrics_local", "src/irspack/evaluation/evaluator.py:_get_scores_as_list", "src/irspack/evaluation/evaluator.py:_get_scores_from_score_chunks_as_list"]}
{"id": "C09", "title": "Only the order of scores matters", "statement": "Applying any strictly increasing transformation to a user's scores (keeping -inf) leaves every metric unchanged.", "quantifier": "all score matrices and all strictly increasing per-user transformations", "why_tests_cant": "quantifies over all functions", "anchors": ["cpp_source/evaluator.cpp:get_metrics_local"]}
{"id": "C10", "title": "Batching never changes evaluation", "statement": "get_score on a model, get_score_from_score_matrix and get_score_from_score_chunks give the same metrics for the same scores and mask whatever mb_size is and however the rows are cut into chunks (empty chunks allowed).", "quantifier": "all chunkings of all score matrices and all mb_size >= 1", "why_tests_cant": "chunkings are unbounded in number", "anchors": ["src/irspack/evaluation/evaluator.py:_get_scores_as_list", "src/irspack/evaluation/evaluator.py:_get_scores_from_score_matrix_as_list", "src/irspack/evaluation/evaluator.py:_get_scores_from_score_chunks_as_list"]}
{"id": "C11", "title": "Chunked evaluation rejects row-count mismatches", "statement": "get_scores_from_score_chunks raises ValueError whenever the chunks do not supply exactly n_users rows or have a wrong number of columns, and never returns partial metrics.", "quantifier": "all chunk sequences", "why_tests_cant": "the erroneous sequences are unbounded; a partial result would look plausible", "anchors": ["src/irspack/evaluation/evaluator.py:_get_scores_from_score_chunks_as_list"]}
{"id": "C12", "title": "User accounting", "statement": "total_user is the number of evaluated rows, valid_user the number of rows having at least one recommendable ground-truth item, and each accuracy metric is the mean of the per-user value over exactly the valid users; users without ground truth do not affect it.", "quantifier": "all inputs", "why_tests_cant": "relation between aggregate and all per-user values", "anchors": ["cpp_source/evaluator.cpp:Metrics::as_dict", "cpp_source/evaluator.cpp:get_metrics_local"]}
{"id": "C13", "title": "Diversity metrics have their textbook meaning and bounds", "statement": "appeared_item is the number of distinct items recommended; catalog_coverage is in [0,1]; entropy is in [0, log(appeared_item)]; gini_index is in [0, 1 - 1/n_items], is 0 when all items are recommended equally often and 1 - 1/n_items when a single item takes all recommendations.", "quantifier": "all multisets of recommended items", "why_tests_cant": "inequalities over all count vectors", "anchors": ["cpp_source/evaluator.cpp:Metrics::as_dict", "src/irspack/evaluation/evaluator.py:_metrics_as_dict"]}
{"id": "C14", "title": "Multiple cutoffs agree with single-cutoff evaluation", "statement": "get_scores(model, cutoffs)[metric@c] equals get_score with cutoff c for every c in cutoffs, whatever other cutoffs are evaluated at the same time (including repeated ones).", "quantifier": "all cutoff lists", "why_tests_cant": "interference between accumulators only shows for particular combinations", "anchors": ["src/irspack/evaluation/evaluator.py:get_scores", "src/irspack/evaluation/evaluator.py:_get_scores_as_list"]}
{"id": "C15", "title": "Bad evaluator arguments are rejected before any result", "statement": "get_metrics raises for n_threads = 0, offset >= n_users, offset + rows > n_users, cutoff = 0 or cutoff > n_items; the evaluator constructor raises for recommendable lists with out-of-range or repeated items or a wrong list count.", "quantifier": "all arguments", "why_tests_cant": "completeness of rejection over all argument combinations", "anchors": ["cpp_source/evaluator.cpp:get_metrics", "cpp_source/evaluator.cpp:EvaluatorCore::EvaluatorCore"]}
{"id": "C16", "title": "DataFrame evaluation scores exactly the users in both frames", "statement": "evaluate_recommendation_df computes per-user metrics over users occurring in both frames only, keeps each user's recommendation order, does not depend on the order of ground-truth rows or on the interleaving of users in the frames, and stays in [0,1] when no user has a repeated recommendation. (With repetitions ndcg can exceed 1, and a user whose list is longer than the number of distinct items may make the native code read past its discount table.)", "quantifier": "all pairs of frames", "why_tests_cant": "order-independence over all permutations", "anchors": ["src/irspack/evaluation/evaluate_df_to_df.py:evaluate_recommendation_df", "cpp_source/evaluator.cpp:evaluate_list_vs_list"]}
{"id": "C17", "title": "Cold-item columns that a model cannot score are never recommended", "statement": "In EvaluatorWithColdUser with cold_item_features, a model scoring only training items is evaluated as if every feature-only item had score -inf: they never appear as recommendations, and results equal the evaluation restricted to training items except that ground truth on cold items counts as unattainable.", "quantifier": "all models, masks and ground truths", "why_tests_cant": "two-run property over all inputs", "anchors": ["src/irspack/evaluation/evaluator.py:EvaluatorWithColdUser._get_scores_as_list"]}
{"id": "C18", "title": "Batch retrieval returns a correct top-cutoff list", "statement": "score_to_recommended_items_batch returns for each user at most cutoff pairs, in non-increasing score order, only items that are allowed and not forbidden and with score not -inf, each paired with its own score rounded to single precision, and no eligible item left out has a larger score than one returned; if fewer than cutoff are returned, every eligible item is returned. (Scores are compared in single precision: double-precision scores that round to the same value count as ties. Wrongly shaped restrictions, a wrong number of columns and zero threads are rejected.)", "quantifier": "all score rows, allowed and forbidden lists, cutoffs, tie resolutions, threads", "why_tests_cant": "ties, duplicates and unknown IDs are combinatorial", "anchors": ["cpp_source/util.hpp:retrieve_recommend_from_score", "src/irspack/utils/id_mapping.py:score_to_recommended_items_batch"]}
{"id": "C19", "title": "Single and batch retrieval agree", "statement": "score_to_recommended_items and score_to_recommended_items_batch return lists with the same scores (up to the batch method's rounding to single precision) (and the same items when scores are distinct) for every cutoff >= 1 and scores without +inf. (For cutoff = 0 or +inf scores they differ.)", "quantifier": "all rows, allowed/forbidden lists, cutoff >= 1", "why_tests_cant": "differential property over all inputs", "anchors": ["src/irspack/utils/id_mapping.py:score_to_recommended_items", "src/irspack/utils/id_mapping.py:score_to_recommended_items_batch"]}
{"id": "C20", "title": "Seen items are never recommended", "statement": "recommend_for_known_user_id / _batch and recommend_for_new_user / _batch never return an item with a non-zero entry in the user's own (training or supplied) profile, nor an unknown item ID, nor a forbidden one, for every recommender. What is returned is the best of the items that remain, in order and with their own scores, and malformed calls are rejected.", "quantifier": "all recommenders' score outputs, profiles and restrictions", "why_tests_cant": "must hold for any model output", "anchors": ["src/irspack/utils/id_mapping.py:recommend_for_known_user_id", "src/irspack/utils/id_mapping.py:recommend_for_new_user", "src/irspack/recommenders/base.py:get_score_remove_seen"]}
{"id": "C21", "title": "ID mapping is a faithful bijection", "statement": "A mapper is created iff the IDs are pairwise distinct; then every index/ID conversion round-trips, profiles become matrix rows holding exactly the known items' weights (unknown IDs are ignored), and row u of the batch matrix is the matrix built from profile u.", "quantifier": "all ID lists and profiles", "why_tests_cant": "round-trip over all inputs", "anchors": ["src/irspack/utils/id_mapping.py:ItemIDMapper", "src/irspack/utils/id_mapping.py:list_of_user_profile_to_matrix"]}
{"id": "C22", "title": "Row-wise split conserves interactions", "statement": "rowwise_train_test_split returns train and test of the source's shape, with disjoint supports, whose sum is the source matrix, for every random outcome, for integer-valued matrices. (For fractional values the values are truncated.)", "quantifier": "all matrices, ratios, seeds/shuffles", "why_tests_cant": "must hold for every random stream", "anchors": ["cpp_source/util.hpp:SplitFunction::split_imple", "src/irspack/utils/__init__.py:rowwise_train_test_split"]}
{"id": "C23", "title": "Row-wise split sizes", "statement": "Each row contributes exactly floor/ceil(ratio*nnz) (or min(n, nnz)) interactions to test; ratio outside [0,1] is rejected; ratio 0 gives an empty test and ratio 1 an empty train part.", "quantifier": "all rows, ratios, seeds", "why_tests_cant": "rounding boundaries are unbounded", "anchors": ["cpp_source/util.hpp:SplitByRatioFunction", "cpp_source/util.hpp:SplitFixedN"]}
{"id": "C24", "title": "Time split holds out exactly the most recent interactions", "statement": "split_last_n_interaction_df partitions the rows of the frame; for each user the held-out rows are min(N_u, n) (or floor/ceil(ratio*N_u)) in number and none of them is older than a kept row of the same user.", "quantifier": "all frames, tie patterns of timestamps, ratios", "why_tests_cant": "order property over all frames", "anchors": ["src/irspack/split/time.py:split_last_n_interaction_df"]}
{"id": "C25", "title": "User hold-out is a partition without leakage", "statement": "split_dataframe_partial_user_holdout assigns each user to exactly one of train/val/test, no interaction of a val/test user reaches the train dataset, and each user's train+test part together is exactly the user's deduplicated interactions.", "quantifier": "all frames, parameters, random shuffles", "why_tests_cant": "must hold for every random stream", "anchors": ["src/irspack/split/userwise.py:split_dataframe_partial_user_holdout"]}
{"id": "C26", "title": "User hold-out sizes", "statement": "When n_val_user / n_test_user are given, exactly that many validation and test users are produced, or ValueError is raised; otherwise int(ratio * n). (As implemented, an explicit n_test_user is silently ignored when test_user_ratio * (#train+val+test users) < 1, and ratios summing to more than 1 are not rejected.)", "quantifier": "all user counts and size parameters", "why_tests_cant": "parameter interactions only fail at particular sizes", "anchors": ["src/irspack/split/userwise.py:split_dataframe_partial_user_holdout"]}
{"id": "C27", "title": "Specified hold-out puts exactly the flagged interactions in the test part", "statement": "holdout_specific_interactions partitions users into train/val/test; users with no flagged interaction are all train users; in val and test datasets the test part holds exactly the flagged interactions and the train part exactly the unflagged ones of those users; train users keep everything.", "quantifier": "all frames, indicators, ratios and shuffles", "why_tests_cant": "must hold for every random stream and indicator", "anchors": ["src/irspack/split/specified.py:holdout_specific_interactions"]}
{"id": "C28", "title": "DataFrame to matrix conversion keeps the total weight", "statement": "df_to_sparse gives at (user,item) the sum of the ratings (or the count) of the frame's rows with that user and item; given user_ids/item_ids fix the row/column order and rows outside them are dropped; otherwise ids are the sorted distinct values and nothing is dropped.", "quantifier": "all frames and id lists", "why_tests_cant": "aggregation law over all frames", "anchors": ["src/irspack/utils/__init__.py:df_to_sparse"]}
{"id": "C29", "title": "User/train-test pair container", "statement": "UserTrainTestInteractionPair rejects inconsistent shapes, X_all = X_train + X_test, concat stacks users in order and rejects different item counts; df_train/df_test list exactly the stored interactions.", "quantifier": "all pairs", "why_tests_cant": "algebraic law", "anchors": ["src/irspack/split/userwise.py:UserTrainTestInteractionPair"]}
{"id": "C30", "title": "remove_diagonal", "statement": "remove_diagonal zeroes exactly the diagonal, keeps every other entry, is idempotent, and rejects non-square input.", "quantifier": "all sparse matrices", "why_tests_cant": "law over all matrices", "anchors": ["cpp_source/util.hpp:remove_diagonal"]}
{"id": "C31", "title": "BM25 / TF-IDF weighting", "statement": "okapi_BM_25_weight and tf_idf_weight keep the sparsity pattern; for non-negative input with parameters in range, BM25 weights are non-negative, strictly increasing in the raw value for fixed document length, and bounded by idf*(k1+1); TF-IDF scales each column by one factor that does not increase with document frequency.", "quantifier": "all non-negative matrices and admissible parameters", "why_tests_cant": "inequalities over the reals", "anchors": ["cpp_source/util.hpp:okapi_BM_25_weight", "cpp_source/util.hpp:tf_idf_weight"]}
{"id": "C32", "title": "Row normalisation", "statement": "l1_normalize_row makes every row with positive sum sum to 1, keeps the pattern and the ratio of entries inside a row.", "quantifier": "all non-negative matrices", "why_tests_cant": "law over all matrices", "anchors": ["src/irspack/utils/__init__.py:l1_normalize_row"]}
{"id": "C33", "title": "Neighbourhood truncation keeps the k best", "statement": "Each row of a computed similarity has at most top_k stored entries; they are the top_k largest values of the untruncated row (ties resolved toward the smaller column), with their exact values; top_k >= row size keeps the whole row.", "quantifier": "all similarity rows and top_k", "why_tests_cant": "tie patterns are combinatorial", "anchors": ["cpp_source/knn/knn.hpp:compute_similarity_triple"]}
{"id": "C34", "title": "Similarity does not depend on threads or chunk size", "statement": "compute_similarity gives the same matrix for every n_threads >= 1 and max_chunk_size >= 1.", "quantifier": "all matrices, thread counts, chunk sizes", "why_tests_cant": "partition boundaries are unbounded", "anchors": ["cpp_source/knn/knn.hpp:compute_similarity", "cpp_source/knn/knn.hpp:compute_similarity_triple"]}
{"id": "C35", "title": "Similarity measures: range, symmetry and special cases", "statement": "Normalised cosine lies in (-1,1), Jaccard and Tversky in [0,1); cosine and Jaccard are symmetric; Tversky with alpha=beta=1 equals Jaccard; asymmetric cosine with alpha=1/2 equals cosine; similarity never increases with shrinkage (for non-negative data).", "quantifier": "all matrices and admissible parameters", "why_tests_cant": "inequalities over the reals", "anchors": ["cpp_source/knn/similarities.hpp:CosineSimilarityComputer", "cpp_source/knn/similarities.hpp:JaccardSimilarityComputer", "cpp_source/knn/similarities.hpp:TverskyIndexComputer", "cpp_source/knn/similarities.hpp:AsymmetricCosineSimilarityComputer"]}
{"id": "C36", "title": "P3alpha weights are random-walk probabilities", "statement": "Without truncation, P3alphaRecommender.W[j, i] is the probability of a step from item j to a user and on to item i (entries^alpha, normalised per item and per user); the weights out of an item are non-negative and sum to 1 for every item with at least one (positive) interaction; RP3beta equals P3alpha with the weights into every item i divided by popularity(i)^beta, so beta=0 gives P3alpha; normalize_weight makes the rows sum to 1 for any top_k.", "quantifier": "all non-negative interaction matrices and alpha", "why_tests_cant": "stochasticity over all matrices", "anchors": ["cpp_source/knn/similarities.hpp:P3alphaComputer", "cpp_source/knn/similarities.hpp:RP3betaComputer"]}
{"id": "C37", "title": "SLIM coordinate descent never increases the documented objective", "statement": "Every coordinate update of SLIM is the exact minimiser of the documented elastic-net objective in that coordinate subject to the constraints, so the objective never increases over iterations, for any visiting order. (Violated by the implementation when changes are below the tolerance of Eigen's isZero: they are stored but never propagated to the residuals.) Whatever the tolerance, one update increases the objective by at most half the square of the tolerance times the number of dropped updates, times the largest squared column length.", "quantifier": "all data, regularisation, visiting orders, iteration counts", "why_tests_cant": "descent over all real data", "anchors": ["cpp_source/util.hpp:SLIM", "src/irspack/recommenders/slim.py:SLIMRecommender"]}
{"id": "C38", "title": "SLIM fixed points are optimal", "statement": "If a full SLIM sweep changes nothing, the learned column is a global minimiser of the documented convex problem under zero diagonal (and non-negativity if requested). If the iterations stop because the reported changes are below tol, the column is optimal up to an error proportional to tol, to the tolerance of the zero test and to the distance from the better column.", "quantifier": "all data", "why_tests_cant": "global optimality is a universally quantified inequality", "anchors": ["cpp_source/util.hpp:SLIM"]}
{"id": "C39", "title": "SLIM structural guarantees", "statement": "The learned weight matrix has zero diagonal and, with positive_only, no negative entry; with top_k set each column has at most top_k non-zeros, being the largest of that column. (The top_k part is violated by the implementation: a shared sort buffer leaks entries of other columns.)", "quantifier": "all data, visiting orders, block partitions", "why_tests_cant": "leak needs a specific sequence of columns", "anchors": ["cpp_source/util.hpp:SLIM"]}
{"id": "C40", "title": "DenseSLIM/EDLAE closed form is the constrained optimum", "statement": "DenseSLIM's W has zero diagonal and minimises ||X-XB||^2 + reg||B||^2 over all B with zero diagonal; EDLAE the same with the dropout-dependent diagonal penalty; p=0 EDLAE equals DenseSLIM.", "quantifier": "all data matrices and positive regularisation", "why_tests_cant": "optimality over all competitors", "anchors": ["src/irspack/recommenders/dense_slim.py:DenseSLIMRecommender._learn", "src/irspack/recommenders/edlae.py:EDLAERecommender._learn"]}
{"id": "C41", "title": "iALS reports the documented loss", "statement": "compute_loss (Gram-matrix form) equals the documented weighted squared loss summed over all user-item pairs plus regularisation, up to the documented constant, for both loss types.", "quantifier": "all interaction matrices, embeddings, hyper-parameters", "why_tests_cant": "an identity over all real matrices", "anchors": ["cpp_source/als/IALSTrainer.hpp:compute_loss", "src/irspack/recommenders/ials.py:IALSRecommender"]}
{"id": "C42", "title": "An iALS half-epoch never increases the loss", "statement": "Updating all user (or all item) embeddings by the Cholesky, conjugate-gradient (any number of steps), or coordinate/subspace (iALS++) solver never increases the training loss; Cholesky attains the minimum over that side.", "quantifier": "all data, embeddings, hyper-parameters, thread schedules, CG step counts", "why_tests_cant": "descent over all real data", "anchors": ["cpp_source/als/IALSTrainer.hpp:step_cholesky", "cpp_source/als/IALSTrainer.hpp:step_cg", "cpp_source/als/IALSTrainer.hpp:step_icd", "cpp_source/als/IALSTrainer.hpp:step_ialspp"]}
{"id": "C43", "title": "Conjugate gradient converges within the embedding dimension", "statement": "With max_cg_steps = 0 the CG solver returns the exact solution of the user's linear system (in exact arithmetic, up to its stopping threshold), and intermediate residuals are mutually orthogonal.", "quantifier": "all positive definite systems of every dimension", "why_tests_cant": "induction over dimension and step", "anchors": ["cpp_source/als/IALSTrainer.hpp:step_cg"]}
{"id": "C44", "title": "Batched Gram update equals the plain sum", "statement": "Accumulating a user's Gram matrix in buffered batches of 64 gives exactly sum of c*v v^T for every number of interactions (including multiples of 64 and 0).", "quantifier": "all interaction lists", "why_tests_cant": "buffer boundaries are unbounded", "anchors": ["cpp_source/als/IALSTrainer.hpp:BatchedRankUpdater"]}
{"id": "C45", "title": "Cold-start embedding is consistent with training", "statement": "compute_user_embedding / get_score_cold_user on a profile gives the minimiser of the per-user loss for the current item factors (Cholesky), depends only on that user's own row, is zero for an empty profile, and equals what a training half-step would assign to a training user with the same row.", "quantifier": "all profiles and batches of profiles", "why_tests_cant": "independence from batch-mates over all batches", "anchors": ["cpp_source/als/IALSTrainer.hpp:X_to_vector", "src/irspack/recommenders/ials.py:IALSRecommender.compute_user_embedding"]}
{"id": "C46", "title": "iALS block scores", "statement": "user_scores(begin,end) equals rows begin..end of U·V^T for every thread count and schedule; invalid ranges are rejected.", "quantifier": "all ranges, thread counts, schedules", "why_tests_cant": "boundary partitions unbounded", "anchors": ["cpp_source/als/IALSTrainer.hpp:user_scores"]}
{"id": "C47", "title": "Feature-aware iALS", "statement": "The feature weight update is the exact minimiser of the feature-ridge part of the loss; with feature priors, each half-step still never increases the feature-aware loss; with alpha0 = 0 a user with an empty history gets exactly the feature-predicted embedding.", "quantifier": "all features and data", "why_tests_cant": "optimality over all competitors", "anchors": ["cpp_source/als/IALSTrainer.hpp:update_feature_weight", "cpp_source/als/IALSTrainer.hpp:step_with_prior"]}
{"id": "C48", "title": "iALS state round trip", "statement": "Saving and loading an iALS trainer/config restores identical parameters, factors and scores, including feature weights; so does pickling, on every machine that reports how many processors it has.", "quantifier": "all states", "why_tests_cant": "round-trip over all states", "anchors": ["cpp_source/als/wrapper.cpp", "src/irspack/recommenders/ials.py:IALSTrainer.save_state", "cpp_source/als/IALSLearningConfig.hpp"]}
{"id": "C49", "title": "Frequency-scaled regularisation rescaling", "statement": "With nu_star set, the rescaled regularisation gives the same total regularisation weight as nu = nu_star with the original reg, for every data set.", "quantifier": "all data and exponents", "why_tests_cant": "identity over the reals", "anchors": ["src/irspack/recommenders/ials.py:compute_reg_scale"]}
{"id": "C50", "title": "Score API coherence of recommenders", "statement": "For similarity-based recommenders get_score, get_score_block and get_score_cold_user on the same rows agree; get_score_remove_seen changes exactly the seen positions to -inf; TopPop gives every user the item popularity; scoring before learn raises.", "quantifier": "all matrices and index lists", "why_tests_cant": "pointwise law over all inputs", "anchors": ["src/irspack/recommenders/base.py:BaseSimilarityRecommender", "src/irspack/recommenders/base.py:get_score_remove_seen", "src/irspack/recommenders/toppop.py:TopPopRecommender"]}
{"id": "C51", "title": "Early stopping returns the best validated state", "statement": "When learn_with_optimizer with an evaluator returns normally, the model is in the state whose validation score is the maximum over all validations performed (the earliest such), and learnt_config['train_epochs'] is that epoch. If no validation ever improves (e.g. max_epoch < validate_epoch, or NaN scores) it raises instead of returning an arbitrary state — on a fresh recommender.", "quantifier": "all score sequences, epochs and stop parameters", "why_tests_cant": "quantifies over all histories of scores", "anchors": ["src/irspack/recommenders/base_earlystop.py:learn_with_optimizer"]}
{"id": "C52", "title": "Early stopping patience", "statement": "Training stops exactly when score_degradation_max consecutive validations fail to improve on the best, never runs more than max_epoch epochs, and a pruned trial reports every validated score before stopping.", "quantifier": "all score sequences and parameters", "why_tests_cant": "all histories", "anchors": ["src/irspack/recommenders/base_earlystop.py:learn_with_optimizer"]}
{"id": "C53", "title": "Re-training with the learnt number of epochs reproduces the tuned model", "statement": "For a deterministic trainer, calling learn() with train_epochs set to the learnt value gives the state selected by early stopping.", "quantifier": "all deterministic trainers and score sequences", "why_tests_cant": "all histories", "anchors": ["src/irspack/recommenders/base_earlystop.py:_learn", "src/irspack/recommenders/base_earlystop.py:learn_with_optimizer"]}
{"id": "C54", "title": "Tuning keeps fixed parameters and reports what it used", "statement": "In tune(), fixed recommender_params override suggested ones in every trial, are not sampled by the default suggestion, and do not appear in the returned best parameters; the returned best parameters are those of a trial with the best objective.", "quantifier": "all parameter ranges, suggestion functions and trial histories", "why_tests_cant": "all histories", "anchors": ["src/irspack/optimization/optimizer.py:Optimizer", "src/irspack/recommenders/base.py:default_suggest_parameter"]}
{"id": "C55", "title": "Parameter names and ranges are validated", "statement": "A tuning range is created iff its bounds are ordered, and names accepted for suggested attributes are exactly those of the documented form. (A trailing newline is also accepted.)", "quantifier": "all strings and bounds", "why_tests_cant": "all strings", "anchors": ["src/irspack/optimization/parameter_range.py"]}
{"id": "C56", "title": "Thread-count resolution", "statement": "get_n_threads returns the explicit argument if given, else the environment value as integer, else the CPU count or 1, and raises ValueError for uninterpretable values.", "quantifier": "all arguments and environments", "why_tests_cant": "decision table with error branches", "anchors": ["src/irspack/_threading.py:get_n_threads"]}
{"id": "C57", "title": "Dataset download is crash-safe", "statement": "After kills at any points of downloading MIND data, with any number of processes sharing a directory, what is at the path of an archive is always the complete archive (or the file that was there before), a constructed manager reads only complete archives, a new undisturbed process gets all of them, and no temporary file remains unless a process was killed. (A connection that ends early without an exception violates this, and the generic zip downloader violates it after a kill.)", "quantifier": "all interleavings, kill points and restart histories of any number of processes", "why_tests_cant": "crash points cannot be enumerated by unit tests", "anchors": ["src/irspack/dataset/mind.py:_download", "src/irspack/dataset/downloader.py:SingleZipDownloader"]}
{"id": "C58", "title": "Dimension-doubling search", "statement": "tune_doubling_dimension explores initial*2^k for exactly the k with initial*2^k <= maximal, stops, and returns the parameters of the best dimension. (initial = 0 never stops; a tie raises.)", "quantifier": "all dimensions and score histories", "why_tests_cant": "termination over all inputs", "anchors": ["src/irspack/recommenders/ials.py:tune_doubling_dimension"]}
{"id": "C59", "title": "MIND parsing", "statement": "Impression strings are parsed into exactly their (item, clicked) pairs in order; interactions keep row multiplicity; item info keeps the first row for each id; the archive member chosen is the exact name or the unique suffix match, otherwise KeyError.", "quantifier": "all files", "why_tests_cant": "parsing law over all strings", "anchors": ["src/irspack/dataset/mind.py:read_impressions", "src/irspack/dataset/mind.py:_read_as_istream"]}
{"id": "C60", "title": "KNN recommenders: documented similarity matrix", "statement": "The matrix W learnt by the item KNN recommenders is the documented similarity between the columns of the (feature-weighted) interaction matrix with a zero diagonal, restricted column-wise to the top_k largest entries; the matrix U of the user KNN recommenders is the documented similarity between users with a zero diagonal.", "quantifier": "all interaction matrices, weightings, similarity parameters and top_k", "why_tests_cant": "equality with a formula for all matrices; the restriction's direction shows only for particular tie and size patterns", "anchors": ["src/irspack/recommenders/knn.py:BaseKNNRecommender._learn", "src/irspack/recommenders/user_knn.py:BaseUserKNNRecommender._learn", "cpp_source/knn/knn.hpp:compute_similarity_triple"]}
{"id": "C61", "title": "P3alpha / RP3beta: columns of W keep the top_k entries", "statement": "With top_k = k, each column of W of P3alphaRecommender / RP3betaRecommender stores at most k entries: exactly the k largest of the untruncated column, ties toward the smaller index.", "quantifier": "all interaction matrices, alpha, beta, k", "why_tests_cant": "tie patterns are combinatorial", "anchors": ["cpp_source/knn/similarities.hpp:P3alphaComputer::compute_W", "cpp_source/knn/similarities.hpp:RP3betaComputer::compute_W", "src/irspack/recommenders/p3.py:P3alphaRecommender._learn"]}
{"id": "C62", "title": "iALS training and prediction do not depend on threads", "statement": "For the same data, parameters and seed, IALSRecommender.learn, the scores of known users and the embeddings and scores of new users and items are the same for every positive n_threads and every way the worker threads interleave (in exact arithmetic), or raise for all of them; with positive regularisation and no features, training never raises.", "quantifier": "all data, solvers, features, numbers of epochs, thread counts and interleavings", "why_tests_cant": "interleavings cannot be enumerated by tests; any number of threads", "anchors": ["cpp_source/als/IALSTrainer.hpp:step", "cpp_source/als/IALSTrainer.hpp:user_scores", "cpp_source/als/IALSTrainer.hpp:transform_user", "src/irspack/recommenders/ials.py:IALSRecommender"]}
{"id": "C63", "title": "Mult-VAE minibatching, annealing and scores", "statement": "Every epoch of Mult-VAE training uses every user's profile in exactly one minibatch, updates in order and with a KL weight that rises from 0 to kl_anneal_goal, never above it, and stays there after anneal_end_epoch epochs; the training loss is never negative. The scores of a user are log-probabilities over the items and depend only on the parameters and this user's profile, not on the minibatch size, the other users or the position; get_score is get_score_cold_user of the training rows; loading saved parameters restores the scores. The documented l2_regularizer has no effect; minibatch_size=0 and anneal_end_epoch=0 raise ZeroDivisionError; scoring no user raises ValueError.", "quantifier": "all data, shuffles, minibatch sizes, network parameters, optimisers and random draws", "why_tests_cant": "all shuffles, sizes and network parameters", "anchors": ["src/irspack/recommenders/multvae.py:MultVAETrainer.run_epoch", "src/irspack/recommenders/multvae.py:MultVAETrainer.get_score_cold_user", "src/irspack/recommenders/multvae.py:MultVAE", "src/irspack/recommenders/multvae.py:MultVAERecommender"]}
{"id": "C64", "title": "Score history of a shared study", "statement": "In the history returned by tuning, the scores listed for a trial are those of that trial, no trial is listed twice, and every trial that finished its evaluation has its scores listed, also when several workers tune one study. (Overlapping workers lose scores.)", "quantifier": "all interleavings of the storage accesses of any number of trials", "why_tests_cant": "all schedules", "anchors": ["src/irspack/optimization/optimizer.py:add_score_to_trial", "src/irspack/optimization/optimizer.py:study_to_dataframe"]}
{"id": "C65", "title": "Where the Hugging Face token is sent", "statement": "When MIND data is downloaded from Hugging Face the token sent is the argument if given, otherwise that of the environment; it is not sent to other servers. (The token of the environment is also sent to the Azure server.)", "quantifier": "all sources, arguments and environments", "why_tests_cant": "all combinations of arguments and environment; the leak needs a real request to be observed", "anchors": ["src/irspack/dataset/mind.py:MINDDataManager.__init__", "src/irspack/dataset/mind.py:_download"]}
{"id": "C66", "title": "Delimited files are read line by line", "statement": "When the data managers read a delimited file (MIND, MovieLens, NeuMF), the table has one row for each line that is not blank, in order, with the fields of that line; short lines are filled up with missing values; a line that is longer than the first and than the given names is an error and not silently cut. (Not when a field begins with a quotation mark: then lines are merged and articles are lost. Fields of a first line that is longer than the names become an index.)", "quantifier": "all tables with any number of lines and fields, with either line end", "why_tests_cant": "all texts", "anchors": ["src/irspack/dataset/mind.py:MINDDataManager", "src/irspack/dataset/neu_mf.py:NeuMFDownloader.read_train_test", "src/irspack/dataset/movielens/ML1M.py:MovieLens1MDataManager", "src/irspack/dataset/movielens/ML100K.py:MovieLens100KDataManager"]}
{"id": "C67", "title": "The NeuMF test data label what the file says", "statement": "The test data have one row for each user and item of the file; the held-out item of a line is positive, the sampled other items of the line are negative, also when the held-out item is among the sampled ones; malformed lines raise. (When a user has several lines, an item that an earlier line lists as negative stays negative.)", "quantifier": "all files of well-formed lines, any number of negatives and white space in the parentheses", "why_tests_cant": "all files", "anchors": ["src/irspack/dataset/neu_mf.py:NeuMFDownloader.read_train_test"]}
{"id": "C68", "title": "CiteULike interactions are those of the file", "statement": "The interactions are, for each line and each item on it in order and with multiplicity, the number of the line and the item; it raises when a line is not a count followed by as many integers. (Blank lines are checked against the count of the line before.)", "quantifier": "all files", "why_tests_cant": "all files", "anchors": ["src/irspack/dataset/citeulike.py:CiteULikeADataManager.read_interaction"]}
{"id": "C69", "title": "MovieLens tables", "statement": "The ratings of MovieLens 1M are the four fields between the double colons of each line. The genre table of MovieLens 100K lists for every movie exactly the genres whose flag is not zero.", "quantifier": "all files", "why_tests_cant": "all files", "anchors": ["src/irspack/dataset/movielens/ML1M.py:MovieLens1MDataManager.read_interaction", "src/irspack/dataset/movielens/ML100K.py:MovieLens100KDataManager.read_item_info"]}
{"id": "C70", "title": "Evaluation does not change the caller's arrays", "statement": "Evaluating a score matrix or a stream of score blocks never changes an array of the caller, even when the arrays are views that share memory, and the result is computed from the values each array holds at the moment it is handed over, so a generator may refill one buffer for every block. Evaluating a model leaves what the model stores unchanged, and batch retrieval from a score array leaves the array unchanged.", "quantifier": "all evaluators, masks, arrays (arbitrary views), memories and generators with arbitrary side effects on the caller's memory", "why_tests_cant": "all aliasing patterns and all interleavings of a generator's writes with the evaluator's reads", "anchors": ["src/irspack/evaluation/evaluator.py:Evaluator._get_scores_from_score_chunks_as_list", "src/irspack/evaluation/evaluator.py:Evaluator._get_scores_from_score_matrix_as_list", "src/irspack/evaluation/evaluator.py:Evaluator._get_scores_as_list", "src/irspack/utils/id_mapping.py:ItemIDMapper.score_to_recommended_items_batch"]}
{"id": "C71", "title": "Synthetic data have the requested density", "statement": "The synthetic data set generator returns a matrix with the requested numbers of users and items whose entries are 0 or 1. The expected density of the matrix, given the drawn factors, is within 2.5e-6 of the requested density, or of the closest density that a bias between -100 and 100 attains, and the search for the bias ends within 25 rounds.", "quantifier": "all sizes, densities and draws of the random generator", "why_tests_cant": "all draws of real numbers and all target densities", "anchors": ["src/irspack/utils/sample_data.py:mf_example_data"]}
{"id": "C72", "title": "Recommenders by name, from configurations and from tuning ranges", "statement": "A recommender built from keyword arguments has exactly these values and its documented defaults otherwise; unknown names are rejected, never ignored. A recommender built from a configuration object has the configured values, every field of a configuration is accepted by the constructor, a configuration of another recommender is rejected, and the configuration and the constructor given the same arguments build the same recommender. Every combination of values from a recommender's default tuning range is accepted by its constructor, and learning with it succeeds: no suggested value is refused later by a solver; every range offers at least two values. Looking a recommender up by name gives the class registered last under this name.", "quantifier": "all recommender classes, all argument lists, all suggestions, all histories of class definitions", "why_tests_cant": "all argument combinations and all orders of class definitions", "anchors": ["src/irspack/recommenders/base.py:BaseRecommender.from_config", "src/irspack/recommenders/base.py:RecommenderMeta", "src/irspack/recommenders/base.py:get_recommender_class", "src/irspack/recommenders/ials.py:IALSConfig", "src/irspack/recommenders/bpr.py:BPRFMConfig", "src/irspack/recommenders/multvae.py:MultVAEConfig"]}
{"id": "C73", "title": "The documented hold-out workflow measures what it claims", "statement": "Split an interaction frame by users, train any recommender on the stacked matrices of the documentation and evaluate it on the validation or test pair (or with the cold-user evaluator). The training matrices have one row per user in the order of the data sets and contain exactly the interactions that are not held out. Evaluation succeeds, and the reported metrics are those of recommending to each user the best-scored items among all items of the frame except those the user is learnt with, judged by exactly the interactions held out for that user. Ratings, if used, are non-zero integers.", "quantifier": "all frames, split parameters, random choices, recommenders, batch sizes, thread counts and lists of cutoffs", "why_tests_cant": "an off-by-one in an offset, a permuted user order or a leaked interaction only shows for particular data; the claim composes four components for every input", "anchors": ["src/irspack/split/userwise.py:split_dataframe_partial_user_holdout", "src/irspack/split/userwise.py:UserTrainTestInteractionPair", "src/irspack/evaluation/evaluator.py:Evaluator", "src/irspack/evaluation/evaluator.py:EvaluatorWithColdUser", "examples/movielens/movielens_1m.py", "examples/movielens/movielens_1m_cold.py"]}
{"id": "C74", "title": "Native routines stay inside their arrays", "statement": "For every input that is accepted, the multi-threaded native routines (metric computation from a score matrix and from lists, retrieval of recommendations, row-wise split, BM25 and TF-IDF weighting, truncation of similarities to top_k, iALS loss and row solvers, sparse product) only read and write inside their arrays, in every interleaving, and leave in them what the functional description says. Known exceptions: the evaluator checks neither the number of columns nor the row stride of the scores; recommendation lists with repetitions can run past the discount table; an unpickled iALS trainer has no interactions to read; the sparse product does not check its inner dimension.", "quantifier": "all inputs, thread counts and interleavings", "why_tests_cant": "an out-of-bounds access usually goes unnoticed in a test run, and depends on sizes", "anchors": ["cpp_source/evaluator.cpp:Metrics::update", "cpp_source/evaluator.cpp:EvaluatorCore::get_metrics_local", "cpp_source/evaluator.cpp:evaluate_list_vs_list", "cpp_source/util.hpp:retrieve_recommend_from_score", "cpp_source/util.hpp:split_imple", "cpp_source/util.hpp:okapi_BM_25_weight", "cpp_source/util.hpp:parallel_sparse_product", "cpp_source/knn/knn.hpp:compute_similarity_triple", "cpp_source/als/IALSTrainer.hpp:compute_loss", "src/irspack/evaluation/evaluator.py:EvaluatorWithColdUser"]}
{"id": "C75", "title": "Metrics in floating-point arithmetic", "statement": "Computed in double precision, by any number of threads, in any interleaving and in blocks of any size, the reported accuracy metrics (hit, recall, nDCG, precision, MAP) are within a small number of roundings of their exact values: 2 * cutoff + block rows + threads + blocks + 6, that is a relative error of about that many times 2^-52. Results for different thread counts therefore differ by roundings only (but need not be equal to the last bit). Numbers of users, hits, appearing items and item counts are exact, and the metrics derived from item counts are the same number for every thread count.", "quantifier": "all score matrices, ground truths, cutoffs, block sizes, thread counts, interleavings and roundings with a given relative error per operation", "why_tests_cant": "tests compare with a tolerance on a few data sets and cannot bound the error or rule out an interleaving", "anchors": ["cpp_source/evaluator.cpp:Metrics", "cpp_source/evaluator.cpp:EvaluatorCore::get_metrics", "src/irspack/evaluation/evaluator.py:Evaluator"]}
{"id": "C76", "title": "Seeds and random states", "statement": "Row-wise splits, user hold-outs, hold-outs for specific users and sample data draw only from the random state they are given. The same integer seed gives the same result whatever the process has drawn before and whatever other random states exist; a RandomState object gives the result determined by the state it is in, equal to that of a seed if freshly seeded, and other calls in between that do not use it do not matter. numpy's global generator and all other random states are left alone; None reads fresh entropy; other types and unusable seeds are rejected with a ValueError and no effect. Every outcome is one described by the models of C22-C27 and C71. Known exceptions: the user hold-out lists items in the order of a Python set, so the same seed can hold out other interactions in another process; training a Mult-VAE model draws from the global generator.", "quantifier": "all requests, random states, random libraries whose shuffles are permutations, histories of calls and states of the process", "why_tests_cant": "a test fixes one history and one process; hash randomisation changes between processes", "anchors": ["src/irspack/utils/random.py:convert_randomstate", "src/irspack/utils/__init__.py:rowwise_train_test_split", "src/irspack/split/userwise.py:split_dataframe_partial_user_holdout", "src/irspack/utils/sample_data.py:mf_example_data", "src/irspack/recommenders/multvae.py:MultVAETrainer.run_epoch"]}
{"id": "C77", "title": "Labels of reports and the tuned number", "statement": "get_scores(model, cutoffs) and its score-matrix and score-chunk variants (for both evaluators) return a dictionary whose keys are exactly metric@cutoff for the nine documented metrics and the requested cutoffs, in order of first appearance; each value is what an evaluation with that cutoff alone reports for the metric; labels never collide, repeated cutoffs do no harm, and labelling adds no error. target_metric is accepted exactly if it is one of the five documented names (KeyError otherwise); get_target_score, the single-cutoff report, the entry under target_metric_name and the entry in the tuning history are the same number, and optuna gets its negative.", "quantifier": "all evaluators, recommenders, score matrices, chunkings, lists of cutoffs and metric names", "why_tests_cant": "tests look at a few labels for one list of cutoffs", "anchors": ["src/irspack/evaluation/evaluator.py:Evaluator.get_scores", "src/irspack/evaluation/evaluator.py:Evaluator.get_target_score", "src/irspack/evaluation/evaluator.py:TargetMetric", "src/irspack/evaluation/evaluator.py:METRIC_NAMES", "src/irspack/optimization/optimizer.py:add_score_to_trial"]}
{"id": "C78", "title": "Hyperparameters reach the trainer", "statement": "A native configuration built by any sequence of setter calls has in each setting the last value given to it, or the native default, independently of the order of calls for different settings and of other builders; a value of the wrong kind or out of range raises a type error. An iALS recommender trains and predicts with exactly the hyperparameters its constructor was given (each real number rounded once to single precision), never with a native default; solver and loss names are accepted in any capitalisation; a recommender with features never runs an epoch with the iALS++ solver.", "quantifier": "all sequences of setter calls with arbitrary Python values, all existing builders, both ways of returning a builder from a setter, all recommender arguments, all rounding functions, all capitalisations of names", "why_tests_cant": "a swapped pair of settings is invisible unless both differ from their defaults, and there are unboundedly many call sequences and values", "anchors": ["cpp_source/als/IALSLearningConfig.hpp: IALSModelConfig::Builder, SolverConfig::Builder", "cpp_source/als/wrapper.cpp: NB_MODULE", "src/irspack/recommenders/ials.py: IALSTrainer.__init__, IALSRecommender.__init__, _create_trainer, str_to_solver_type, str_to_loss_type"]}
{"id": "C79", "title": "iALS training and scores in single precision", "statement": "With every operation rounded, the embeddings of a half-epoch of iALS with the Cholesky solver solve each user's (item's) linear system up to an explicit componentwise bound, so that no other embeddings have a loss smaller by more than an explicit amount; runs with different numbers of threads, interleavings or vectorisations differ by at most that bound; the factorisation fails for nobody if the regularisation dominates the rounding errors; scores are the products of the embeddings up to n_components roundings, and an item that beats another by more than the error bound is ranked higher in every run. Bitwise reproducibility across numbers of threads does not hold.", "quantifier": "all interaction matrices with non-negative values, all embeddings, hyperparameters with positive regularisation, numbers of threads, interleavings, orders of summation inside Eigen, rounding functions with relative error at most u, and backward stable Cholesky solvers", "why_tests_cant": "rounding errors depend on sizes, values, schedule and vectorisation; tests compare a few small matrices with a tolerance chosen by hand", "anchors": ["cpp_source/als/IALSTrainer.hpp: Solver::prepare_p, compute_reg, BatchedRankUpdater, step_cholesky, user_scores", "cpp_source/als/definitions.hpp: Real", "src/irspack/recommenders/ials.py: IALSTrainer.run_epoch, get_score"]}
{"id": "C80", "title": "An iALS model is a function of data, hyperparameters and seed", "statement": "With init_std > 0, two IALSRecommenders given the same matrix, hyperparameters and random_seed learn the same embeddings up to rounding (or both raise), whatever number of threads they use, however the threads interleave and whatever the freshly allocated memory holds. The initial embedding of a user is a fixed stretch of the seeded generator's output, so it does not change when users, items or interactions are added. User j and item j start from the same vector, because both matrices are filled from the same seed. With init_std <= 0 nothing is filled and the model starts from uninitialised memory.", "quantifier": "every matrix, hyperparameter setting, seed, random generator, thread count, interleaving and content of fresh memory", "why_tests_cant": "a test trains with a few seeds on one machine, whose fresh memory is usually zero; that no memory content or interleaving can matter is a statement about all of them", "anchors": ["cpp_source/als/IALSTrainer.hpp: Solver::initialize, IALSTrainer constructors", "src/irspack/recommenders/ials.py: IALSRecommender._create_trainer"]}
{"id": "C81", "title": "iALS training converges", "statement": "However many epochs one trains, the losses that compute_loss reports never increase and tend to a limit, with any solver and with or without features. The embeddings stay in a ball given by the initial loss and the regularisation. With positive regularisation the change of the embeddings from epoch to epoch tends to zero with every solver, and there are limit points; with the Cholesky or the conjugate-gradient solver the rate is bounded by the initial loss divided by the number of epochs, with iALS++ by that times the number of sub-steps of a half-epoch. With Cholesky and with iALS++ (any block size, including one dimension at a time), at every limit point neither the users alone nor the items alone can be changed to lower the loss. With conjugate gradients (the default) there is an epoch after which nothing changes any more, and from then on every embedding solves its linear system up to the solver's tolerance. With user or item features the same holds of the embeddings and the feature weights together: with Cholesky no change of one side's embeddings and feature weights lowers the loss at a limit point, however long the warm-up is, and with conjugate gradients embeddings and weights come to rest, the weights being the best ones for the embeddings.", "quantifier": "every matrix with non-negative confidences, all hyperparameters with reg >= 0 and alpha0 >= 0, every initialisation, number of epochs, number of threads and interleaving in every epoch", "why_tests_cant": "a limit is a statement about infinitely many epochs, for every initialisation", "anchors": ["cpp_source/als/IALSTrainer.hpp: IALSTrainer::step, Solver::step_cholesky, Solver::step_cg, IALSTrainer::compute_loss", "src/irspack/recommenders/ials.py: IALSTrainer.compute_loss, IALSTrainer.run_epoch"]}
{"id": "C82", "title": "arguments of the neighbourhood and random-walk recommenders mean what they are called", "statement": "Whatever keyword arguments a user gives to one of the KNN recommenders (cosine, asymmetric cosine, Jaccard and Tversky by items, cosine and asymmetric cosine by users), P3alpha or RP3beta, and whatever arguments are left out, the matrix that learn() computes is the documented formula for the values under those names: shrinkage is the shrinkage, alpha and beta are the exponents of the formula, normalize selects the normalised formula, feature_weighting selects the weighting with bm25_k1 and bm25_b in their places, top_k bounds the number of entries, normalize_weight divides rows by their sums, and arguments left out have the documented defaults. Values out of range, unknown names and unknown weightings are refused.", "quantifier": "every set of keyword arguments in any order, every setting of the environment variable for threads, every interaction matrix", "why_tests_cant": "the constructors pass arguments on by position through two more signatures in other orders, so a mix-up shows only for values that differ from the defaults and from each other", "anchors": ["src/irspack/recommenders/knn.py: BaseKNNRecommender, CosineKNNRecommender, AsymmetricCosineKNNRecommender, JaccardKNNRecommender, TverskyIndexKNNRecommender", "src/irspack/recommenders/user_knn.py: CosineUserKNNRecommender, AsymmetricCosineUserKNNRecommender", "src/irspack/recommenders/p3.py: P3alphaRecommender", "src/irspack/recommenders/rp3.py: RP3betaRecommender", "cpp_source/knn/wrapper.cpp"]}
{"id": "C83", "title": "Arguments of the SLIM, factorisation and autoencoder recommenders mean what they are called", "statement": "For SLIMRecommender, DenseSLIMRecommender, EDLAERecommender, TruncatedSVDRecommender, NMFRecommender, BPRFMRecommender and MultVAERecommender, each constructor argument, given by keyword or left out, reaches the solver or the wrapped library under the meaning of its name: SLIM runs with penalties n_users*alpha*(1-l1_ratio) and n_users*alpha*l1_ratio, the sign constraint, sweeps, tolerance, threads and top_k (None keeps all); DenseSLIM and EDLAE return the only minimiser of the documented loss at the given reg and dropout_p; scikit-learn and LightFM are asked for exactly the documented keyword arguments (components capped below the number of items, alpha under the name the installed version uses, fixed seed 42 for NMF) and LightFM is trained train_epochs times with the resolved number of threads; the Mult-VAE network has the named layer sizes (decoder as encoder if None) and is trained with the named annealing, batch size, learning rate and dropout. Unknown arguments are a TypeError, an unknown BPRFM loss a ValueError, data with fewer than two items an AssertionError for TruncatedSVD.", "quantifier": "for all training data, all sets of keyword arguments with all values of the right types, all environments (thread variable, processors), all library behaviours and all interleavings of the SLIM workers", "why_tests_cant": "A swapped pair of positional arguments or a default that is silently used instead of a given value gives a model that still learns and scores; tests look at a few argument sets and never at every argument of every class.", "anchors": ["src/irspack/recommenders/slim.py:SLIMRecommender", "src/irspack/recommenders/dense_slim.py:DenseSLIMRecommender", "src/irspack/recommenders/edlae.py:EDLAERecommender", "src/irspack/recommenders/truncsvd.py:TruncatedSVDRecommender", "src/irspack/recommenders/nmf.py:NMFRecommender", "src/irspack/recommenders/bpr.py:BPRFMTrainer", "src/irspack/recommenders/bpr.py:BPRFMRecommender", "src/irspack/recommenders/multvae.py:MultVAETrainer", "src/irspack/recommenders/multvae.py:MultVAERecommender", "cpp_source/util.cpp:slim_weight_allow_negative"]}
{"id": "C84", "title": "The arguments of IALSRecommender mean what they are called", "statement": "For any set of keyword arguments of IALSRecommender, given in any order or left out: learn() trains a model of n_components dimensions for train_epochs epochs with n_threads threads; the confidence of an interaction is its value or log(1 + value/epsilon) according to confidence_scaling; the native model configuration holds the named alpha0, nu, init_std, seed, loss type, feature weights and warm-up epochs, the training solver the named solver (in any capitalisation), max_cg_steps and subspace dimension with one pass per epoch, the prediction solver the named numbers of steps and passes; the regularisation is reg, or with nu_star the one for which all regularisation terms weigh as much as with reg and nu = nu_star. Learning succeeds for positive alpha0 and reg and non-negative confidences, and the learnt embeddings have a documented loss at these hyperparameters no larger than the initial ones. Unknown arguments, scalings, solvers and losses, and features with solver IALSPP, are refused with TypeError, KeyError, AttributeError and ValueError.", "quantifier": "all keyword argument lists, environments, interaction matrices, feature matrices, initial embeddings, interleavings of the threads", "why_tests_cant": "There are twenty arguments with defaults, passed on through attributes, a keyword call and three chains of setters; a swapped pair shows only for values that differ, and a test fixes one combination at a time.", "anchors": ["src/irspack/recommenders/ials.py:IALSRecommender.__init__", "src/irspack/recommenders/ials.py:IALSRecommender._create_trainer", "src/irspack/recommenders/ials.py:IALSTrainer", "cpp_source/als/IALSLearningConfig.hpp", "src/irspack/recommenders/base_earlystop.py:_learn"]}
{"id": "C85", "title": "Validating during training does not change what is learnt", "statement": "For every recommender with early stopping, the model after a given number of epochs does not depend on whether, how often and on which users it was validated during training, so that learn() with the reported train_epochs reproduces the model that early stopping selected (given the same shuffles).", "quantifier": "all data, hyperparameters, evaluators (also ones that change the trainer), pruning decisions, numbers of epochs and validation frequencies", "why_tests_cant": "The number of epochs, the validations and the scores that select an epoch range over infinitely many histories; a test compares two of them.", "anchors": ["src/irspack/recommenders/base_earlystop.py:BaseRecommenderWithEarlyStopping.learn_with_optimizer", "src/irspack/recommenders/multvae.py:MultVAETrainer.get_score_cold_user", "src/irspack/recommenders/multvae.py:MultVAETrainer.run_epoch", "src/irspack/evaluation/evaluator.py:Evaluator._get_scores_as_list"]}
{"id": "C86", "title": "SLIM training converges to the solution of its documented problem", "statement": "With alpha > 0 and l1_ratio < 1 the problem SLIMRecommender documents has exactly one solution. Every sweep closes a fixed share of the gap between the loss reached and the smallest possible loss, so that the documented loss of the learnt weights exceeds the smallest one by at most rate^n_iter times the loss of the zero matrix plus an amount proportional to tol squared; a positive tol ends the iterations after a number of sweeps that depends on the data alone, beyond which n_iter has no effect; and as n_iter grows and tol shrinks every weight tends to that of the solution, whatever the shuffles, the number of threads and the interleaving.", "quantifier": "all interaction matrices, alpha > 0, l1_ratio in [0,1), positive_only or not, n_iter, tol, visiting orders, numbers of threads and interleavings; all sequences of trainings with n_iter growing without bound and tol tending to 0", "why_tests_cant": "A test trains on a few matrices for a few sweeps; a rate, a bound on the number of sweeps and a limit speak about all data and all numbers of sweeps.", "anchors": ["cpp_source/util.hpp:SLIM", "src/irspack/recommenders/slim.py:SLIMRecommender"]}
{"id": "C87", "title": "The numbers given to users and items, and the order of the log, do not matter", "statement": "Users and items enter the library as row and column numbers. Giving them other numbers only renames the results: the metrics of an evaluation are the same unless two items whose order the ranking must decide have equal scores; cosine, asymmetric, Jaccard and Tversky neighbourhoods that keep all neighbours, P3alpha and RP3beta without top_k, EDLAE and DenseSLIM, the solution of SLIM's problem, popularity scores and the scores computed from similarities are those of the renamed users and items; and iALS, started from embeddings that go with their users and items, learns after any number of epochs embeddings (and feature weights) that go with them, with the same loss. The matrix built from a log of interactions does not depend on the order of its rows.", "quantifier": "all interaction matrices, all renumberings of users and of items, all hyper-parameters admitted by each algorithm, all orders of the stored entries, numbers of threads and interleavings, all logs and all permutations of their rows", "why_tests_cant": "There are factorially many renumberings of every data set; a test tries a few on a few data sets, and an implementation that mixes up a row and a column number, or lets a buffer or a block boundary matter, fails only on some of them.", "anchors": ["cpp_source/evaluator.cpp:EvaluatorCore", "src/irspack/utils/__init__.py:df_to_sparse", "cpp_source/knn/similarities.hpp", "cpp_source/als/IALSTrainer.hpp:IALSTrainer", "src/irspack/recommenders/base.py", "src/irspack/recommenders/edlae.py", "src/irspack/recommenders/dense_slim.py", "src/irspack/recommenders/toppop.py"]}
{"id": "C88", "title": "Evaluators and trainers keep their behaviour across calls and pickling", "statement": "However an evaluator has been used before (any sequence of evaluations with good or bad arguments, any thread counts and interleavings, pickled and unpickled in between), it returns, as long as the runtime really starts the threads that fill its cache, the metrics a freshly built one returns for the same call. A pickled and unpickled evaluator has the attributes of the original. A Mult-VAE trainer can be pickled at every moment of its life, and the one that comes out of the pickle has every attribute of the original, including the optimiser and the scoring and updating functions that the pickle leaves out.", "quantifier": "all ground truths and recommendable lists, all histories of calls, thread counts and interleavings; all histories of a Mult-VAE trainer", "why_tests_cant": "the cache and the parts left out of a pickle make the answer depend on the history, of which there are infinitely many", "anchors": ["cpp_source/evaluator.cpp:EvaluatorCore", "src/irspack/evaluation/evaluator.py:Evaluator", "src/irspack/recommenders/multvae.py:MultVAETrainer.__getstate__", "src/irspack/recommenders/multvae.py:MultVAETrainer.__setstate__"]}
{"id": "C89", "title": "SLIM: what is reproducible between runs", "statement": "SLIMRecommender.learn, called again with the same data and parameters, returns the same weights. (Violated by the implementation with more than one thread: every worker has its own generator, so the order in which the features of a block of items are visited depends on which worker got the block, and the number of items optimised together, with a common stopping rule, is the SIMD width of the build.) With one thread, with all items in one block, for the items of the first block, and whenever every block was claimed by the same worker, the weights are the same in every run. Any two runs, whatever the threads, schedules, generators and SIMD widths, differ by at most an amount that shrinks with n_iter and tol.", "quantifier": "all data, parameters, numbers of threads, schedules, generators", "why_tests_cant": "two runs agree by accident on most schedules; the difference needs a worker to fall behind", "anchors": ["cpp_source/util.hpp:SLIM", "src/irspack/recommenders/slim.py:SLIMRecommender"]}
{"id": "C90", "title": "The unit in which interactions are measured", "statement": "Interactions may be given in stars or half stars, seconds or minutes. Multiplying all of them by a positive constant c does not change what Jaccard and Tversky neighbourhoods and P3alpha learn, whatever their arguments; it divides the weights of RP3beta by c^beta (and changes nothing if they are normalised). The other parameters have a unit, and once they are converted the result is the same: c^2 for the regularisation of EDLAE, DenseSLIM and SLIM (for every schedule and shuffle); c for the saturation constant of BM25 and the corresponding factor for the shrinkage of cosine and asymmetric cosine neighbourhoods; c for alpha0 and reg of iALS, trained for any number of epochs with the Cholesky or iALS++ solver. Scores of item-based models with the same weights, and popularity, are multiplied by c, so rankings stay. Three constants of the implementation have a hidden unit, so that these invariances fail without conversion: the 1e-6 added to the denominator of cosine similarities, the stopping threshold 1e-20 of the conjugate-gradient solver of iALS (with small interactions a new user gets the zero embedding), and the mixture of counts and alpha0 in the regularisation of iALS with nu other than 0.", "quantifier": "all interaction matrices, all positive constants, all hyper-parameters, all arguments given to the constructors, all numbers of threads, interleavings, shuffles and epochs", "why_tests_cant": "a comparison of two units on one data set shows nothing about another constant or another data set, and a hidden absolute threshold only shows at extreme values", "anchors": ["cpp_source/knn/similarities.hpp:CosineSimilarityComputer", "src/irspack/recommenders/knn.py:JaccardKNNRecommender", "src/irspack/recommenders/p3.py:P3alphaRecommender", "src/irspack/recommenders/rp3.py:RP3betaRecommender", "src/irspack/recommenders/dense_slim.py:DenseSLIMRecommender", "src/irspack/recommenders/edlae.py:EDLAERecommender", "cpp_source/util.hpp:SLIM", "cpp_source/als/IALSTrainer.hpp:IALSTrainer", "src/irspack/utils/__init__.py:okapi_BM_25_weight"]}
{"id": "C91", "title": "Tuning with the default ranges does not fail by what it suggests", "statement": "Whatever values within a recommender's default tuning range a trial suggests (including the ends of every range), constructing and training the recommender with them raises nothing, on every training matrix of the kind the recommender accepts; TruncatedSVD asks its library for a number of components that the data allows even if more were suggested. Consequently tune() without further arguments, with an evaluator that returns a number for the target metric and any sampler that stays within the ranges, completes all its trials for every positive number of trials, and the parameters it returns have a value within its range for every tuned parameter.", "quantifier": "all assignments of values within the default ranges (continuous and integer, unbounded many), all training matrices of any size, all numbers of threads and thread schedules, all histories of samplers and all numbers of trials", "why_tests_cant": "A test tunes a few trials with a random sampler on one matrix; a failure at an end of a range, for a rare combination of suggestions, or for a narrow matrix appears only in long studies on other data.", "anchors": ["src/irspack/recommenders/base.py:BaseRecommender.tune", "src/irspack/recommenders/base.py:BaseRecommender.default_suggest_parameter", "src/irspack/recommenders/knn.py:default_tune_range", "src/irspack/recommenders/user_knn.py:default_tune_range", "src/irspack/recommenders/p3.py:default_tune_range", "src/irspack/recommenders/rp3.py:default_tune_range", "src/irspack/recommenders/dense_slim.py:default_tune_range", "src/irspack/recommenders/edlae.py:default_tune_range", "src/irspack/recommenders/slim.py:default_tune_range", "src/irspack/recommenders/truncsvd.py:default_tune_range", "src/irspack/recommenders/ials.py:default_tune_range", "src/irspack/optimization/parameter_range.py:default_tune_range_knn", "src/irspack/optimization/optimizer.py:BaseOptimizer.objective_func"]}
{"id": "C92", "title": "Users and items without interactions have no influence on what the others get", "statement": "Adding users without interactions does not change what the item-based KNN recommenders (without feature weighting), P3alpha, RP3beta, TopPop, DenseSLIM and EDLAE learn, for all constructor arguments and also when these are rejected, nor the scores of the users that were there; user-based KNN recommenders learn the same with empty rows and columns added. Adding items that nobody used leaves everything learnt by the KNN recommenders (with any weighting), the random walks (with or without top_k) and TopPop unchanged but for empty rows and columns. For SLIM this holds if alpha is converted so that alpha times the number of users is the same; with the same alpha it is false. For iALS it holds with nu = 0 for the documented loss and for training with the Cholesky or CG solver from the same initial embeddings, new users getting zero embeddings; with nu other than 0 it is false. With TF-IDF or BM25 weighting it is false for users.", "quantifier": "all interaction matrices, all numbers of added users and items, all constructor arguments, all numbers of threads and interleavings, all numbers of epochs", "why_tests_cant": "the two runs have different sizes, chunks and schedules; equality has to hold for every data set and every amount of padding, and the exceptions depend on the number of users only through penalties that small examples hide", "anchors": ["src/irspack/recommenders/knn.py:BaseKNNRecommender._learn", "src/irspack/recommenders/user_knn.py:BaseUserKNNRecommender._learn", "src/irspack/recommenders/p3.py:P3alphaRecommender._learn", "src/irspack/recommenders/rp3.py:RP3betaRecommender._learn", "src/irspack/recommenders/slim.py:SLIMRecommender._learn", "src/irspack/recommenders/dense_slim.py", "src/irspack/recommenders/edlae.py", "src/irspack/recommenders/toppop.py", "cpp_source/als/IALSTrainer.hpp:compute_reg", "cpp_source/util.hpp:okapi_BM_25_weight"]}
{"id": "C93", "title": "Larger cutoffs, and the order of the metrics", "statement": "The list evaluated at a cutoff is the beginning of the list evaluated at a larger cutoff. Therefore, of two cutoffs of one evaluation, the larger one has the same user counts, and at least the hit rate, the mean average precision, the number of appeared items, the catalogue coverage and (unless recall is capped by recall_with_cutoff) the recall of the smaller one. Precision, nDCG and capped recall can fall, but only by the ratio of the normalisers of the two cutoffs. In every report precision, recall and nDCG are at most the hit rate, mean average precision is at most recall, and at cutoff 1 precision, nDCG and capped recall equal the hit rate. recall_with_cutoff changes nothing but recall, and never lowers it; with at most one relevant item per user recall is the hit rate. Asking a recommender's ID mapper for more recommendations extends the list: the scores of the shorter list are the first scores of the longer one, and without ties the lists agree.", "quantifier": "all ground truths, scores, recommendable lists, masks, pairs of cutoffs, chunkings; for retrieval all recommenders, users, restriction lists and any partial sort or argsort the library may use", "why_tests_cant": "the claims compare two evaluations for every score matrix and every pair of cutoffs; tests compute a few metric values at one cutoff", "anchors": ["cpp_source/evaluator.cpp: Metrics::update, EvaluatorCore::get_metrics", "src/irspack/evaluation/evaluator.py: Evaluator.get_scores, get_scores_from_score_chunks", "src/irspack/utils/id_mapping.py: IDMapper.recommend_for_known_user_id, recommend_for_known_user_batch", "cpp_source/util.hpp: retrieve_recommend_from_score"]}
{"id": "C94", "title": "Interactions stored with the value zero do not change what is learnt or recommended", "statement": "A sparse interaction matrix may store entries whose value is zero (a rating of 0 in a log passed to df_to_sparse with a rating column does). Replacing the matrix by the one without these entries changes no score, no mask of seen items, and nothing that a recommender learns, except for zeros that are stored in the learnt matrix.", "quantifier": "every interaction matrix with non-negative values, every set of constructor arguments, every list of users, every number of threads and interleaving", "why_tests_cant": "tests use matrices without stored zeros; that none of the code paths counts stored entries instead of values is a statement about all matrices and arguments.", "anchors": ["src/irspack/recommenders/base.py:get_score_remove_seen", "src/irspack/recommenders/knn.py", "src/irspack/recommenders/user_knn.py", "src/irspack/recommenders/p3.py", "src/irspack/recommenders/rp3.py", "src/irspack/recommenders/slim.py", "src/irspack/recommenders/ials.py", "cpp_source/knn/similarities.hpp", "cpp_source/als/IALSTrainer.hpp", "cpp_source/util.hpp", "cpp_source/evaluator.cpp"]}
{"id": "C95", "title": "Users with the same history get the same scores, items with the same audience get the same score", "statement": "If two users have interacted with the same items with the same values, every neighbourhood, random-walk, SLIM, DenseSLIM, EDLAE, popularity and Mult-VAE recommender gives them the same scores, also with the seen items masked; user-neighbourhood recommenders do so if top_k is at least the number of users. If the same users have interacted with two items with the same values, the item-neighbourhood recommenders (top_k at least the number of items), the random walks (no top_k), DenseSLIM, EDLAE, the solution SLIM approaches, the user-neighbourhood recommenders and TopPop give both items the same score for every user. iALS: after an epoch of the Cholesky solver twins have the same embedding whatever they started from; new users with the same history get the same embedding from every solver; with any solver twins that start alike stay alike. It fails with a smaller top_k, where ties are broken by item number, and for the default conjugate-gradient solver stopped before the optimum, where the random initial embeddings remain visible.", "quantifier": "all interaction matrices, all pairs of users with equal rows and of items with equal columns, all constructor arguments in range, all numbers of threads, schedules and epochs", "why_tests_cant": "A test compares a few twins in one matrix; the claim is about all matrices, all pairs and all parameters, and rests on a symmetry of the whole computation.", "anchors": ["src/irspack/recommenders/base.py:BaseSimilarityRecommender.get_score", "src/irspack/recommenders/base.py:BaseUserSimilarityRecommender.get_score", "src/irspack/recommenders/knn.py:BaseKNNRecommender", "src/irspack/recommenders/rp3.py:RP3betaRecommender", "src/irspack/recommenders/dense_slim.py:DenseSLIMRecommender", "src/irspack/recommenders/edlae.py:EDLAERecommender", "src/irspack/recommenders/slim.py:SLIMRecommender", "src/irspack/recommenders/toppop.py:TopPopRecommender", "src/irspack/recommenders/multvae.py:MultVAERecommender.get_score", "cpp_source/als/IALSTrainer.hpp:step_cholesky", "cpp_source/als/IALSTrainer.hpp:step_cg", "cpp_source/knn/knn.hpp:KNNComputer"]}
{"id": "C96", "title": "Populations that share neither users nor items do not influence each other", "statement": "If the interactions fall into two parts, ours and theirs, that share neither users nor items, then the scores our users get do not depend on what happens in the other part (as long as the shape of the matrix is kept), and our users get score zero for the items of the other part. This holds for the item-based and user-based nearest-neighbour recommenders with any top_k (without feature weighting or with TF-IDF), P3alpha and RP3beta with any top_k and normalisation, DenseSLIM, EDLAE, and the solution of SLIM's problem. It does not hold for TopPop (popularity is counted over everybody), for BM25 weighting (the mean history length is) and for iALS (the Gram matrix of all embeddings takes part in every update).", "quantifier": "all pairs of interaction matrices of the same shape that fall into the two parts and agree on ours, all learning arguments (shrinkage, alpha, beta, normalize, top_k, thread count, weighting other than BM25, regularisation, dropout), all users of our part and all items", "why_tests_cant": "A test compares scores on a few matrices; that nothing leaks from one part of the data to the other has to hold for every content of the other part, every top_k and every thread count.", "anchors": ["src/irspack/recommenders/knn.py", "src/irspack/recommenders/user_knn.py", "src/irspack/recommenders/p3.py", "src/irspack/recommenders/rp3.py", "src/irspack/recommenders/dense_slim.py", "src/irspack/recommenders/edlae.py", "src/irspack/recommenders/slim.py", "src/irspack/recommenders/toppop.py", "src/irspack/recommenders/ials.py", "src/irspack/utils/__init__.py: okapi_BM_25_weight, tf_idf_weight", "cpp_source/knn/knn.hpp", "cpp_source/knn/similarities.hpp"]}
{"id": "C97", "title": "Similarities and walks computed in double precision are reproducible and accurate", "statement": "The item-item and user-user similarity matrices learnt in floating point are identical to the last bit for every n_threads, every chunk size and every conforming nth_element. On non-negative data each learnt cosine, asymmetric cosine, P3alpha and RP3beta weight agrees with the documented formula up to a number of roundings that depends only on the largest number of users per item and items per user; Jaccard and Tversky similarities are off by at most 3 and 6 roundings whatever the size. Asymmetric cosine assumes 1 - alpha is representable. With top_k the neighbours the normalised cosine keeps are the best ones up to that error. The scores computed from them are as accurate, and TopPop scores of count data are exact.", "quantifier": "all machine arithmetics with relative error u per operation and any order of summation, all interaction matrices, shrinkages, alphas and betas, thread counts, chunk sizes and top_k", "why_tests_cant": "A test compares one build's rounding on one matrix with a tolerance picked by hand; the claim is a bound on the error for all matrices, all summation orders a compiler or Eigen may use, and all schedules.", "anchors": ["cpp_source/knn/similarities.hpp:CosineSimilarityComputer", "cpp_source/knn/similarities.hpp:JaccardSimilarityComputer", "cpp_source/knn/similarities.hpp:TverskyIndexComputer", "cpp_source/knn/similarities.hpp:P3alphaComputer", "cpp_source/knn/similarities.hpp:RP3betaComputer", "cpp_source/knn/knn.hpp:KNNComputer", "src/irspack/recommenders/knn.py:BaseKNNRecommender", "src/irspack/recommenders/base.py:BaseSimilarityRecommender", "src/irspack/recommenders/toppop.py:TopPopRecommender"]}
{"id": "C98", "title": "One user's history only affects items and users it touches", "statement": "Train the same recommender on two data sets that differ only in the history of one user v. Item-based nearest neighbours (cosine, asymmetric cosine, Jaccard, Tversky; unweighted, or TF-IDF for the cosines) with top_k at least the number of items: the similarity of two items v has used in neither data set is the same, and so is the score of such an item for every user who has no item in common with v. P3alpha without top_k: all weights from an item v has not used, and all scores of users who share no item with v, are the same; RP3beta likewise for recommended items v has not used. User-based nearest neighbours without feature weighting, any top_k: the neighbours and all scores of a user who shares no item with v are the same. TopPop: the score of an item changes by exactly the change of v's own interaction with it. With a smaller top_k the item-based claim is false: a stranger who has used neither item can change whether an item is recommended.", "quantifier": "all pairs of data sets of the same shape that differ in one user's row, all accepted arguments of the recommenders named, all numbers of threads, all users and items", "why_tests_cant": "A test retrains on one changed history; that nothing else moves must hold for every data set, every change and every setting.", "anchors": ["src/irspack/recommenders/knn.py:CosineKNNRecommender", "src/irspack/recommenders/user_knn.py:CosineUserKNNRecommender", "src/irspack/recommenders/p3.py:P3alphaRecommender", "src/irspack/recommenders/rp3.py:RP3betaRecommender", "src/irspack/recommenders/toppop.py:TopPopRecommender", "cpp_source/knn/similarities.hpp:CosineSimilarityComputer", "cpp_source/knn/knn.hpp:KNNComputer"]}
{"id": "C99", "title": "The caller's matrices are left alone, and built objects do not follow them", "statement": "Building a recommender, an evaluator or a train/test pair, training with feature matrices, and reading pairs as data frames leaves every matrix of the caller as it was; and what was built keeps the matrices as they were when it was built, whatever the caller writes into theirs later. True of recommenders' training matrices and evaluators' ground truth. False in these cases: masked_interactions and X_train/X_test in CSR format are shared, so later writes change the evaluation and leave X_all different from X_train + X_test; a cold-user evaluator keeps input_interaction itself; a float64 CSR feature matrix with unsorted indices is corrupted by iALS training, and with it the features of other recommenders built from it, if the native binding sorts indices in place.", "quantifier": "all states of memory, all matrices in CSR or CSC format with any sharing of buffers, sorted or not, with or without duplicates, all dtypes, all later writes of the caller", "why_tests_cant": "whether arrays are shared depends on format, dtype, sortedness and earlier calls; a test sees one combination and usually a sorted float64 matrix that is never written again", "anchors": ["src/irspack/recommenders/base.py:BaseRecommender.__init__", "src/irspack/evaluation/evaluator.py:Evaluator.__init__", "src/irspack/evaluation/evaluator.py:EvaluatorWithColdUser.__init__", "src/irspack/split/userwise.py:UserTrainTestInteractionPair", "src/irspack/recommenders/ials.py:_feature_matrix_as_float32", "src/irspack/recommenders/ials.py:compute_reg_scale"]}
{"id": "C100", "title": "Archives put together from several downloads are complete or refused", "statement": "For the NeuMF and Amazon-music data managers: after any history of constructions, failed downloads, killed processes and removals of the file, a manager that is constructed and whose data can be read returns the data of the server. True of the training data and of everything in the Amazon archive. False of the NeuMF test data: if their download fails with an exception, the archive is closed with an empty entry, and the next construction succeeds without downloading and returns an empty test table. If the download of the Amazon metadata fails, all later constructions succeed and the metadata can never be read. A file left by a killed process is refused by every later construction.", "quantifier": "all contents on the servers, all histories of attempts with any downloads failing and processes killed before the file is created or before its directory is written, and of removals of the file", "why_tests_cant": "the failure happens in one run and shows in a later one; it depends on which download fails and when, and a test has no server that fails on demand", "anchors": ["src/irspack/dataset/downloader.py:BaseDownloader.__init__", "src/irspack/dataset/neu_mf.py:NeuMFDownloader", "src/irspack/dataset/amazon_music.py:AmazonMusicDataManager"]}
{"id": "C101", "title": "Descriptions of items belong to the items they are attached to", "statement": "MovieLens-1M: each movie's release year is y exactly if its own title ends with (y), y being digits, possibly followed by white space. MovieLens-100K: the genres are the names in the genre file in the order of its lines, if no name contains white space (otherwise names are broken up); the numbers in that file are ignored, so a file in another order labels movies wrongly. CiteULike: item i of the interactions is described by document i + 1. Amazon music: the metadata are returned exactly if every line is a dictionary with an asin and not an empty list of categories, one row per line in order, with missing titles, prices and categories missing; each line is evaluated as Python, so the downloaded file decides what is executed.", "quantifier": "all texts, all classifications of characters as digits and white space that agree with the formats, all behaviours of evaluating a line", "why_tests_cant": "the files are downloaded and tests see a few lines of them at most; odd titles, genre names and lines are a matter of all possible contents", "anchors": ["src/irspack/dataset/movielens/ML100K.py:MovieLens100KDataManager._read_genre", "src/irspack/dataset/movielens/ML1M.py:MovieLens1MDataManager.read_item_info", "src/irspack/dataset/amazon_music.py:AmazonMusicDataManager.read_metadata", "src/irspack/dataset/citeulike.py:CiteULikeADataManager.read_item_meta"]}
{"id": "C102", "title": "A recommender whose training failed, was interrupted or is under way answers with a trained model or not at all", "statement": "After any history of calls of learn(), each of which returns, raises or is interrupted at any point, a recommender answers with a model that a call of learn() computed completely (the last one that stored it), or raises. True of KNN, user KNN, SLIM, DenseSLIM, EDLAE, TopPop, and of P3alpha and RP3beta with normalize_weight=False; true of TruncatedSVD and NMF (with AttributeError as a possible answer) as long as their fits compute the same factors. False of P3alpha and RP3beta with normalize_weight=True, which store the weights before normalising them; of TruncatedSVD when two fits differ; of the recommenders with epochs (iALS, BPRFM, Mult-VAE), which answer with a model that had only some of its updates; and of load_state() of iALS, which replaces the user factors before the item factors.", "quantifier": "all histories of calls of learn(), all results and exceptions of what they compute, all points at which a call is interrupted (or at which another thread looks)", "why_tests_cant": "Interruptions between two assignments cannot be timed in a test, and the histories are unbounded.", "anchors": ["src/irspack/recommenders/base.py: BaseSimilarityRecommender.W, BaseUserSimilarityRecommender.U", "src/irspack/recommenders/p3.py: P3alphaRecommender._learn", "src/irspack/recommenders/rp3.py: RP3betaRecommender._learn", "src/irspack/recommenders/truncsvd.py: TruncatedSVDRecommender._learn", "src/irspack/recommenders/nmf.py: NMFRecommender._learn", "src/irspack/recommenders/base_earlystop.py: BaseRecommenderWithEarlyStopping.learn_with_optimizer", "src/irspack/recommenders/ials.py: IALSTrainer.load_state"]}
{"id": "C103", "title": "Scores that are NaN", "statement": "Evaluator.get_metrics/get_scores and the retrieval functions accept score arrays that contain NaN. Retrieval of a user is defined behaviour of the C++ sort exactly when none of the candidates' scores is NaN or all the scores that are numbers are equal. Evaluation of a user is defined behaviour (in the C++17 the extension is compiled as) exactly when no item with a NaN score stands, in the numbering of the items, between an item and a later item with a larger score. So a model with a single NaN between two numbers in ascending order makes both undefined. If no score is NaN the evaluated list is the ordinary ranking. If all scores of a user that are not masked are NaN, evaluation raises nothing and gives the metrics of a model that scores these items the same; if all are NaN, retrieval returns `cutoff` items with the score NaN. If NaN stands next to masked items (score -inf), the retrieved list may be empty or not, as the sort likes.", "quantifier": "for every number of items, score row with any pattern of NaN, allowed items, cutoff and library sort that keeps to the C++ standard", "why_tests_cant": "A test sees what one standard library does on one array; whether the comparison is a strict weak ordering on every array, and so whether the behaviour is defined at all, quantifies over all arrays.", "anchors": ["cpp_source/evaluator.cpp: EvaluatorCore::get_metrics_local", "cpp_source/util.hpp: retrieve_recommend_from_score"]}
{"id": "C104", "title": "A new user's profile counts by what it says", "statement": "ItemIDMapper.recommend_for_new_user(_batch) takes a profile as a list of item IDs or as a dict of weights. Two profiles that say the same of each known item (how often it is listed, or its weight) get the same scores from item-similarity recommenders, TopPop and Mult-VAE, with the items of the profile removed; so the order, unknown IDs and the choice between a repeated ID and a weight do not matter. The batch method and the single-user method read a profile the same way. iALS scores do not depend on the order of a profile for any loss, solver, regularisation and confidence scaling. With the iALS++ loss, nu = 0 and no scaling they depend only on the amounts; with the original loss, nu = 1 or the logarithmic scaling an item listed twice is scored differently from the item with weight 2, because the repeated entries of the matrix are never added up.", "quantifier": "for every mapper, profiles of any length with repeated and unknown items, fitted model, solver and thread schedule", "why_tests_cant": "A test compares a few profiles; that only the amounts matter quantifies over all profiles, models and orders, and the exceptions depend on the solver's treatment of duplicate entries.", "anchors": ["src/irspack/utils/id_mapping.py: ItemIDMapper.list_of_user_profile_to_matrix, _user_profile_to_data_col, recommend_for_new_user, recommend_for_new_user_batch", "src/irspack/recommenders/base.py: get_score_cold_user_remove_seen", "cpp_source/als/IALSTrainer.hpp: step_cholesky, step_cg, step_ialspp, compute_reg"]}
{"id": "C105", "title": "Random hold-outs favour nobody", "statement": "If the shuffles are ideal (all orders equally likely, independent of each other), the random splits are fair. rowwise_train_test_split: for each user every set of stored interactions of the documented size is held out with the same probability, independently of what is held out for the other users; so each stored interaction is held out with probability (number held out)/(number stored), and for integer values the expected test matrix is that share of the source. split_dataframe_partial_user_holdout: every assignment of the users to train, validation and test that makes the parts as large as the function makes them is equally likely; each user is in a part with probability size/number of users, and the sizes do not depend on the shuffles. holdout_specific_interactions distributes the users with a flagged interaction in the same way.", "quantifier": "every matrix without repeated positions, every frame, all parameters for which the call succeeds, every rounding of the held-out sizes, every named set of interactions and every assignment of users", "why_tests_cant": "a test sees some seeds and can only estimate frequencies; a bias of one position (an element that can never be held out, or is a little more likely) is a statement about all orders of all lists and needs counting", "anchors": ["src/irspack/utils/__init__.py:rowwise_train_test_split", "cpp_source/util.hpp:SplitFunction::split_imple", "src/irspack/split/userwise.py:split_dataframe_partial_user_holdout", "src/irspack/split/userwise.py:_split_list", "src/irspack/split/specified.py:holdout_specific_interactions"]}
{"id": "C106", "title": "More evidence counts for, not against", "statement": "When one more user has interacted with both of two items, an item-based nearest-neighbour recommender rates these two items as strictly more similar; when a user takes up only one of two items, their similarity does not grow. Adding an interaction to a new user's profile, or making one stronger, lowers no raw score of the nearest-neighbour and random-walk recommenders. One more interaction with an item raises its popularity score by exactly what was added and touches no other item.", "quantifier": "all data sets, all users whose history changes and all pairs of items, all shrinkages and exponents, all top_k not smaller than the number of items (every top_k for the scores), all thread counts, all pairs of profiles of which one extends the other", "why_tests_cant": "Tests compare a few matrices with a reference implementation; monotonicity relates two training runs and ranges over every data set, every change of a history and every hyperparameter, and holds only because the numerator grows faster than the denominator for all counts.", "anchors": ["src/irspack/recommenders/knn.py: CosineKNNRecommender, AsymmetricCosineKNNRecommender, JaccardKNNRecommender, TverskyIndexKNNRecommender", "cpp_source/knn/similarities.hpp", "src/irspack/recommenders/p3.py: P3alphaRecommender", "src/irspack/recommenders/rp3.py: RP3betaRecommender", "src/irspack/recommenders/toppop.py: TopPopRecommender", "src/irspack/recommenders/base.py: BaseSimilarityRecommender.get_score_cold_user", "cpp_source/util.hpp: tf_idf_weight", "src/irspack/recommenders/ials.py: IALSRecommender.get_score_cold_user"]}
{"id": "C107", "title": "Hyperparameters act in their documented direction", "statement": "For item-based and user-based recommenders, a larger top_k keeps every neighbour that a smaller one keeps, with the same similarity, and adds only neighbours that are not more similar. More shrinkage lowers every positive similarity of the recommenders that divide by it and makes none negative; without normalize, CosineKNNRecommender ignores it. A larger beta of RP3beta shifts weight from popular to less popular items. A larger reg of DenseSLIM and EDLAE, and a larger alpha of SLIM, give cheaper weights and a worse fit; a larger dropout_p of EDLAE reduces the weights of frequently used inputs. With the Cholesky solver of iALS and the same item embeddings, a larger reg either shortens the embedding of a user or leaves it, and fits the data no better; for the iALS++ loss with nu = 0 a larger alpha0 does not raise the sum of a user's squared scores.", "quantifier": "all data sets, all pairs of values of the hyperparameter, all values of the others, all thread counts and schedules, all items and users", "why_tests_cant": "Tests train with a few settings; a direction relates the results of two trainings and ranges over all data and all pairs of settings, and for the optimised models it follows only from the optimality of both results.", "anchors": ["src/irspack/recommenders/knn.py: CosineKNNRecommender, AsymmetricCosineKNNRecommender, JaccardKNNRecommender, TverskyIndexKNNRecommender", "cpp_source/knn/knn.hpp", "cpp_source/knn/similarities.hpp", "src/irspack/recommenders/p3.py: P3alphaRecommender", "src/irspack/recommenders/rp3.py: RP3betaRecommender", "src/irspack/recommenders/dense_slim.py: DenseSLIMRecommender", "src/irspack/recommenders/edlae.py: EDLAERecommender", "src/irspack/recommenders/slim.py: SLIMRecommender", "src/irspack/recommenders/ials.py: IALSRecommender", "cpp_source/als/IALSTrainer.hpp", "src/irspack/recommenders/user_knn.py: CosineUserKNNRecommender, AsymmetricCosineUserKNNRecommender"]}
{"id": "C108", "title": "A failure inside a parallel computation is reported", "statement": "The compiled part of the library divides its work over threads. When something fails in one of them (memory runs out, a matrix cannot be decomposed, the system refuses to start a thread), the call raises an exception, and it is the exception of one of the failures. A call that returns a value has lost nothing: the value is the one that the same computation gives when nothing fails. No call raises without a failure. In a computation that writes one row per user or item, a failing row does not disturb the other rows: as long as fewer things fail than there are threads, every row outside the blocks of the failing rows is complete when the call ends. Bulk recommendations and the ground-truth sets of the evaluators violate this: they return as if nothing had happened, with empty or missing lists, and the evaluator keeps the missing sets for good. Sparse products, the subspace solvers of iALS (with their predictions) and the scores of iALS users violate it as well: there a failure ends the Python process.", "quantifier": "all parallel routines, all numbers of threads, rows and block sizes, all interleavings, all combinations of refused threads, failing workers and failing rows, all exceptions, and everything that failing rows leave behind in their own place", "why_tests_cant": "Failures of memory or threads are rare and cannot be produced at every point of every interleaving by a test; the silent ones look like ordinary results.", "anchors": ["cpp_source/util.hpp: parallel_sparse_product, SLIM, retrieve_recommend_from_score", "cpp_source/evaluator.cpp: EvaluatorCore::cache_X_map, get_metrics, evaluate_list_vs_list", "cpp_source/als/IALSTrainer.hpp: Solver, IALSTrainer", "cpp_source/knn/knn.hpp: KNNComputer::compute_similarity"]}
{"id": "C109", "title": "What is evaluated is what is served", "statement": "If an evaluator and an ID mapper are given the same recommender, users, cutoff and recommendable items, the lists the evaluator measures (get_score, get_scores) are the lists recommend_for_known_user_batch returns: same length, same scores position by position, the same item wherever its score is not shared with another candidate; hence, with distinct scores, the evaluator's report is the report of the served lists. The same holds for recommend_for_known_user_id, and for the cold-user evaluator and recommend_for_new_user_batch. It fails for tied scores, for scores that only differ beyond single precision, and if both a common and a per-user list of allowed items are given (the two classes give precedence to different ones).", "quantifier": "all recommenders, score functions, users, cutoffs, recommendable lists, thread counts and conforming library sorts", "why_tests_cant": "the two paths are separate implementations (EvaluatorCore in C++ with its own sort, masking in evaluator.py; retrieve_recommend_from_score with std::partial_sort on float32, masking in base.py, ID translation in id_mapping.py); agreement on sampled scores says nothing about ties, offsets or restrictions in general", "anchors": ["src/irspack/evaluation/evaluator.py: Evaluator.get_score, Evaluator.get_scores, EvaluatorWithColdUser", "src/irspack/utils/id_mapping.py: recommend_for_known_user_batch, recommend_for_known_user_id, recommend_for_new_user_batch", "cpp_source/evaluator.cpp: EvaluatorCore", "cpp_source/util.hpp: retrieve_recommend_from_score"]}
{"id": "C110", "title": "Serving calls compose: batches can be split, pages and shards can be put together", "statement": "A user of a batch recommendation call gets the list they would get in a call of their own with their own restrictions, so serving a group of users in one call or in several gives the same lists, whatever the number of threads. Asking for k items and then for k' more while forbidding the items already shown never shows an item twice, and the two pages together carry the same scores, position by position, as one call for k + k' items (the same list when the eligible scores are distinct). Forbidding items that are not in a user's list does not change that list's scores. Serving two parts of the catalogue separately and then serving from what was found gives the scores of one call allowing both parts. This needs lists of allowed items without repeated IDs: a repeated ID is shown twice by the batch call. Forbidding items that are in the list leaves the others in place: the new list begins with what is left of the old one (its scores, if scores are tied).", "quantifier": "all recommenders scoring each user by itself, all known users and new user profiles, all page lengths, all restrictions, all partial sorts breaking ties in any way, all thread counts", "why_tests_cant": "Ties, the eligible sets and the splits of a request are unbounded, and the partial sort may break ties differently in every call; a test fixes a few of each.", "anchors": ["src/irspack/utils/id_mapping.py: IDMapper.recommend_for_known_user_batch, IDMapper.recommend_for_known_user_id, ItemIDMapper.recommend_for_new_user_batch, ItemIDMapper.score_to_recommended_items_batch", "cpp_source/util.cpp: retrieve_recommend_from_score"]}
{"id": "C111", "title": "Splitting keeps the values of boolean and integer matrices, and exactly which other values", "statement": "A row-wise split returns two matrices of the source's number type. For boolean matrices and matrices of integers of at most 32 bits every stored value goes unchanged to exactly one of them. For every supported type (booleans, signed and unsigned integers of any width, single and double precision) the two parts add up to the source if and only if every stored value is an integer that double precision represents exactly: 64-bit integers above 2^53 such as nanosecond timestamps are changed, and unsigned values from 2^63 on give undefined behaviour.", "quantifier": "all number types, all sparse matrices of that type without repeated positions, all ratios and held-out counts, all shuffles, all round-to-nearest conversions however ties are broken", "why_tests_cant": "The value passes through four conversions (source type, double, 64-bit integer, double, source type); a test tries a few values of one or two types.", "anchors": ["src/irspack/utils/__init__.py: rowwise_train_test_split", "cpp_source/util.hpp: SplitFunction::split_imple, SplitByRatioFunction, SplitFixedN"]}
{"id": "C112", "title": "Arguments that are infinite or not a number", "statement": "A floating-point argument outside its documented range is refused with an error, also when it is infinite or NaN, and accepted arguments give similarities and transition weights that are numbers. This holds for infinite arguments at the checks of all similarity computers, P3alpha and RP3beta, for NaN in SLIM's penalties and the split ratio, and for the values under finite arguments. It fails for NaN: a NaN shrinkage, alpha or beta passes the checks of the nearest-neighbour and random-walk computers and makes every similarity NaN, and an infinite Tversky alpha is accepted and gives NaN for rows that share all their columns. With a NaN shrinkage the score of a user for an item is NaN if the item shares a user with another item of theirs and 0 otherwise, and the evaluator, without an error, measures the items with the smallest numbers.", "quantifier": "every floating-point value of every argument, every matrix with finite entries, every target row, every user, item, mask and cutoff", "why_tests_cant": "Tests try a few finite values out of range. The checks are comparisons which are false for NaN, so which values pass depends on the direction in which each is written, and the damage appears only downstream in the scores.", "anchors": ["cpp_source/argcheck.hpp:check_arg_lower_bounded", "cpp_source/argcheck.hpp:check_arg_doubly_bounded", "cpp_source/knn/knn.hpp:KNNComputer", "cpp_source/knn/similarities.hpp:TverskyIndexComputer", "cpp_source/knn/similarities.hpp:AsymmetricCosineSimilarityComputer", "cpp_source/knn/similarities.hpp:P3alphaComputer", "cpp_source/util.hpp:SLIM", "cpp_source/util.hpp:SplitByRatioFunction"]}
{"id": "C113", "title": "Reports for groups of users combine into the report for all", "statement": "If the evaluated users are divided into two groups, the report for all of them follows from those of the groups: total and valid users add up, each accuracy metric is the mean of the groups' values weighted by their valid users and so lies between them, and the number of items that appear is at least that of either group and at most their sum. Users without relevant items only add to the number of users. The order in which the users are given does not change the report. The entropy of all users does not follow from those of the groups.", "quantifier": "all divisions of all lists of users into two groups, all ground truths, scores, recommendable items, masks and cutoffs, all thread counts, block sizes and chunkings, chosen separately for each of the three evaluations", "why_tests_cant": "Tests evaluate a few fixed matrices; the statement relates three evaluations over all divisions and all data.", "anchors": ["src/irspack/evaluation/evaluator.py:Evaluator", "src/irspack/evaluation/evaluator.py:get_scores", "cpp_source/evaluator.cpp:Metrics", "cpp_source/evaluator.cpp:EvaluatorCore"]}
{"id": "C114", "title": "Evaluating among fewer candidates never lowers an accuracy metric", "statement": "Evaluate the same users, ground truth and scores twice, the second time with fewer items that may be recommended, because fewer items are recommendable or more are masked. If the relevant items of every user stay recommendable and none of them is newly masked, the same users are counted and none of hit rate, precision, recall, NDCG and MAP is lower the second time. Metrics among sampled candidates are therefore always optimistic. The restriction can nevertheless change which of two models has the larger hit rate.", "quantifier": "all lists of users, ground truths, scores with any ties and -inf, recommendable items and masks of the two evaluations, cutoffs, both recall conventions, all thread counts, block sizes and chunkings", "why_tests_cant": "Tests compare a few fixed matrices; the statement compares two evaluations for all candidate sets, and ties or lists shorter than the cutoff make a counterexample easy to miss.", "anchors": ["src/irspack/evaluation/evaluator.py:Evaluator", "src/irspack/evaluation/evaluator.py:get_scores", "cpp_source/evaluator.cpp:Metrics", "cpp_source/evaluator.cpp:EvaluatorCore"]}
{"id": "C115", "title": "Accuracy metrics only depend on, and follow, the order between relevant and other items", "statement": "Evaluate two models on the same users, ground truth, recommendable items and masks, both giving -inf to the same items. If no item outside a user's ground truth that the first model ranks after an item of it is ranked before it by the second (ties by item number), then none of hit rate, precision, recall, NDCG and MAP of the second model is lower. In particular raising scores of ground-truth items and lowering those of others lowers no accuracy metric, and reordering ground-truth items among themselves or other items among themselves changes none.", "quantifier": "all lists of users, ground truths, pairs of score tables with any ties and -inf, recommendable items, masks, cutoffs, both recall conventions, all thread counts, block sizes and chunkings, chosen separately for the two evaluations", "why_tests_cant": "Tests compare fixed score tables with expected values; the statement compares all pairs of models for all cutoffs, including ties and lists that lose a relevant item at the cutoff.", "anchors": ["src/irspack/evaluation/evaluator.py:Evaluator", "src/irspack/evaluation/evaluator.py:get_scores", "cpp_source/evaluator.cpp:Metrics", "cpp_source/evaluator.cpp:EvaluatorCore"]}
{"id": "C116", "title": "More ground truth does not lower hit rate and precision, but can lower recall and MAP", "statement": "Evaluate the same scores twice, the second time with more ground truth for users who have relevant items already. Hit rate and precision are not lower the second time, the users counted, the number of items that appear, the entropy and the Gini index are the same. Recall and MAP can fall. If users who had no relevant item get one, they start to count, and the hit rate can fall as well.", "quantifier": "all lists of users, pairs of ground truths of which the second contains the first, scores, recommendable items, masks, cutoffs, both recall conventions, all thread counts, block sizes and chunkings", "why_tests_cant": "Tests compute metrics for fixed ground truths; the statement compares all pairs of them.", "anchors": ["src/irspack/evaluation/evaluator.py:Evaluator", "src/irspack/evaluation/evaluator.py:get_scores", "cpp_source/evaluator.cpp:Metrics", "cpp_source/evaluator.cpp:EvaluatorCore"]}
{"id": "C117", "title": "How much single users can change a report", "statement": "If two evaluations of the same users differ only in the scores and masks of m of them, none of hit rate, precision, recall, NDCG and MAP differs by more than m divided by the number of valid users, and the number of items that appear differs by at most m times the cutoff. Adding users changes no accuracy metric by more than the share of the valid users that are new.", "quantifier": "all lists of users, all sets of users whose scores or masks differ, all ground truths, scores, recommendable items, masks, cutoffs, both recall conventions, all thread counts, block sizes and chunkings", "why_tests_cant": "A bound on how far any change of a user's scores can move a metric quantifies over all score tables; tests see a few.", "anchors": ["src/irspack/evaluation/evaluator.py:Evaluator", "src/irspack/evaluation/evaluator.py:get_scores", "cpp_source/evaluator.cpp:Metrics", "cpp_source/evaluator.cpp:EvaluatorCore"]}
{"id": "C118", "title": "What a random ranking scores", "statement": "Rank all items in a random order, every order equally likely, the same for all users or for each user rearranged in a fixed way. The expected precision in the report is the mean, over the users with ground truth, of the share of items in the user's ground truth. The expected recall (divided by the size of the ground truth) is the cutoff divided by the number of items, whatever the ground truth; if recall is capped, it is the mean of the larger of cutoff and number of relevant items, divided by the number of items. The expected hit rate is the mean of the chance that as many items as are listed, drawn without replacement, include one of the user's ground truth. The expected NDCG is the mean of the share of items that are relevant, times the DCG of a list in which every place is relevant over the ideal DCG of that user. The expected average precision adds, for every place j (from 0) of the list, (1 + j (r - 1) / (n - 1)) / ((j + 1) n), where r of the n items are relevant. This is the level a useful model has to exceed.", "quantifier": "all lists of users, ground truths, numbers of items, positive cutoffs up to the number of items, rearrangements per user, all thread counts, block sizes and chunkings; the expectation is over all orders of the items", "why_tests_cant": "The statement averages over all n! orders for every n and every ground truth; tests can sample a few.", "anchors": ["src/irspack/evaluation/evaluator.py:Evaluator", "src/irspack/evaluation/evaluator.py:get_scores", "cpp_source/evaluator.cpp:Metrics", "cpp_source/evaluator.cpp:EvaluatorCore"]}
{"id": "C119", "title": "What a perfect ranking scores, and what no ranking can exceed", "statement": "A model that scores every item of each user's ground truth above every other item has hit rate 1 and NDCG 1; its precision is the mean, over the users with ground truth, of min(relevant items, cutoff) / cutoff, its recall and MAP are the mean of min(relevant items, cutoff) / relevant items (recall is 1 if it is capped). No model that scores all items exceeds these values, so recall and MAP stay below 1 if ground truths are larger than the cutoff, and precision if they are smaller. A model that gives -inf to items can exceed the value for precision, because precision is divided by the length of the list.", "quantifier": "all lists of users, ground truths, scores, numbers of items, positive cutoffs up to the number of items, all thread counts, block sizes and chunkings", "why_tests_cant": "The ceiling is a bound over all models, and the perfect values hold for every size of ground truth and cutoff.", "anchors": ["src/irspack/evaluation/evaluator.py:Evaluator", "src/irspack/evaluation/evaluator.py:get_scores", "cpp_source/evaluator.cpp:Metrics", "cpp_source/evaluator.cpp:EvaluatorCore"]}
{"id": "C120", "title": "An item whose score rises is not pushed off the list", "statement": "Take two models over the same users, items and histories. If an item is on the list that the first model serves to a user, and the second scores this item higher for the user and no other item higher, then the item is on the list that the second model serves with the same cutoff and restrictions, at the same place or earlier. The same holds for new users given by profiles, and for the call for a single user as long as the scores are below +inf; the call for a single user drops an item whose score rises to +inf, which the batch call lists first. The claim holds for any scores of the other users, any number of threads, and any order of equal scores.", "quantifier": "all ID lists, models, users, scores, cutoffs, allowed and forbidden lists (allowed lists without repetitions), thread counts, and all ways in which the partial sort may order equal scores", "why_tests_cant": "The claim compares two calls for all score rows, restrictions and orders of equal scores; a test compares a few rows.", "anchors": ["src/irspack/utils/id_mapping.py:IDMapper.recommend_for_known_user_batch", "src/irspack/utils/id_mapping.py:ItemIDMapper.score_to_recommended_items_batch", "cpp_source/util.hpp:retrieve_recommend_from_score", "src/irspack/utils/id_mapping.py:IDMapper.recommend_for_known_user_id", "src/irspack/utils/id_mapping.py:ItemIDMapper.recommend_for_new_user_batch"]}
