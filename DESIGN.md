# Formal model of irspack — design

The properties are listed in `properties.jsonl`; `MANIFEST.json` maps each one to theorem names.
The model lives in `lean/Verif/`:

* `Verif/Model/*.lean`  — definitions that mirror the code function by function. Every definition
  carries a comment with the file and lines of `/repo` it models and the simplifications made.
* `Verif/Spec/*.lean`   — small stand-alone specifications (textbook definitions) that do not use
  the model's helpers.
* `Verif/Proofs/*.lean` — helper lemmas.
* `Verif/Props/*.lean`  — the property theorems, each followed by a non-vacuity `example`.

## Trusted base

* Lean 4.33.0's kernel, and Mathlib's statements of the standard definitions used (ℝ, log, matrices,
  finite sums, permutations).
* Axioms: only `propext`, `Classical.choice`, `Quot.sound` (Lean's standard ones). No axiom of our
  own, no `sorry`, no `native_decide`, no `bv_decide`. `lean/Verif/Axioms.lean` prints them.
* Faithfulness of the model to the code. There is no extraction: the tie is the line-by-line
  citation. The code was not run.

### Idealisations made everywhere

* Floating point is replaced by exact real numbers (metrics, solvers, similarities) or by an
  arbitrary linear order with a least element standing for `-inf` (scores). NaN is out of scope
  unless a theorem says otherwise (C103 has scores, C112 has arguments that may be NaN). Rounding is out of scope, except for the accuracy metrics (C75) and the Cholesky half-epochs and scores of iALS (C79), and the neighbourhood similarities, walks, their scores and TopPop (C97).
* Singular points: a Lean function is total, so `x / 0`, logarithms of non-positive numbers, `0` to a
  negative power and negative numbers to a real power have values in Lean where the code goes on
  with `inf` or NaN. The model stops with `Err.nonFinite` in `evaluate_list` (0/0), the logarithmic
  confidence scaling of iALS, the row steps of iALS++ (failed factorisation, zero pivot) and
  DenseSLIM/EDLAE (zero diagonal of the inverse), and with `zeroDivisionError` where Python divides
  by zero. Elsewhere the theorem's hypotheses exclude the point, or the model's value says nothing
  there: metrics of no users, `0 ** nu` with negative `nu` and negative bases in the iALS
  regularisation, BM25 when the mean length of a profile is 0, P3alpha and RP3beta with a zero degree.
* Machine integers are unbounded `Nat`/`Int`. Overflow is out of scope, except for the
  `int64` truncation in the row-wise split, which is modelled.
* Random number generators: a shuffle is an arbitrary permutation; theorems quantify over it.
* Threads: interleaving semantics with sequentially consistent atomic `fetch_add`. Writes to
  different rows of one array do not interfere. Weak-memory effects are out of scope; the code
  relies on `join`/`future::get` for the final synchronisation.
* External libraries (numpy, scipy.sparse, pandas, Eigen, optuna, torch, zipfile, requests) are
  represented by the mathematical contract of the single operation used (stated in the comment of
  the definition that uses it), e.g. "LLT solve returns x with A x = b".
* Sharing of buffers between sparse matrices (C99 only) follows scipy: `csr_matrix(X)` of a CSR matrix
  shares its buffers, a `dtype` argument copies only the values, `astype` copies all, `sort_indices`
  works in place. Whether the binding sorts the indices of a matrix passed to it is a parameter.
* Interruptions (C102 only) fall between assignments to attributes; what the interpreter, scipy, scikit-learn or
  the extension module computes for one assignment is done completely or not at all. Several threads that train
  the same object at once are out of scope.

### Not modelled

BPR (`lightfm`), NMF and TruncatedSVD (`sklearn`) training; Mult-VAE's autodiff and optimiser (its
network, loss and training loop are modelled with the optimiser as a parameter); the optuna
samplers/pruners; progress bars and logging; pandas I/O other than the tokenizer of `read_csv`
(modelled in `Model/Text` from its documented state machine, without conversion of columns to
numbers and dates); HTTP transport other than success, failure and truncation; nanobind type
conversion, except for that parameter; memory safety beyond the array bounds of C74 (lifetimes, SLIM's buffers); performance.

## Method per property

| id | model | proof |
|----|-------|-------|
| C01 | work queue: atomic cursor, T workers, per-row processing steps, arbitrary schedule | invariant by induction on the schedule; progress measure for termination |
| C02 | `parallel_sparse_product` as work queue adding row products into a zeroed array | corollary of C01 |
| C03 | `get_metrics` as work queue with one local `Metrics` per worker, merged in order | C01 + commutative-monoid sums |
| C04 | `get_metrics_local` candidate construction, partial sort on (−score, index) | refinement to a top-k specification |
| C05–C07 | `Metrics::update`, `as_dict` over ℝ | induction over the recommendation list; rearrangement of discounts |
| C08, C09 | two-run theorems on the evaluator model | congruence of the candidate list / sort |
| C10, C11, C14, C15 | Python evaluator: chunk loop, mask, merge, error branches | induction over chunk lists |
| C12, C13 | `as_dict` | finite-sum algebra, Jensen for entropy, Gini by sorted sums |
| C16 | `evaluate_recommendation_df` over lists of pairs + `evaluate_list_vs_list` | grouping lemmas; counterexamples for duplicates: ndcg above 1, and a read outside the discount table |
| C17 | `EvaluatorWithColdUser` padding | two-run theorem |
| C18–C21 | `retrieve_recommend_from_score` (ties: any partial-sort outcome), ID mappers | relational spec of partial sort |
| C22, C23 | `SplitFunction::split_imple`, shuffles as permutations, int64 truncation | list permutation lemmas; counter-example for fractions |
| C24 | `split_last_n_interaction_df` | stable sort, cumcount |
| C25–C29 | user-wise/specified splits, `df_to_sparse`, pair container | list filtering lemmas; counter-examples for sizes |
| C30–C32 | weighting utilities on coordinate lists/functions | real analysis, finite sums |
| C33, C34 | KNN truncation, static partition, chunk loop | list lemmas |
| C35, C36 | similarity formulas on real matrices | Cauchy–Schwarz, finite sums |
| C37–C39 | SLIM coordinate descent incl. buffer handling | one-dimensional quadratic + soft threshold; convexity; counter-examples (dropped small updates, sort buffer); for the real tolerance the stored residuals are those of coefficients without the dropped changes, which bounds every increase and the error at the stopping rule (Proofs/SlimDrift) |
| C40 | EASE closed form with the matrix inverse as contract | convex quadratic optimality |
| C60, C61 | KNN recommenders and P3alpha/RP3beta on top of C33–C36 | composition of the row-wise results; counter-example for column-wise top_k |
| C41–C44, C47 | iALS loss, Cholesky/CG/ICD/subspace steps | quadratic forms over ℝ, CG invariants |
| C45, C46 | cold-start transform, block scores | per-row independence, C01 |
| C48 | pickle tuples, save/load | round trip |
| C49 | `compute_reg_scale` | algebra |
| C50 | score functions of the similarity, popularity and factorisation recommenders and the masking of seen items, over any semiring | products of rows, index resolution |
| C51–C53 | early stopping as a fold over epochs with arbitrary score oracle | loop invariant |
| C62 | parallel regions of an iALS epoch and of the predictions with arbitrary schedules | both runs determine the same rows |
| C63 | Mult-VAE: network (linear layers, tanh, log-softmax) over exact reals, minibatches, update counter; gradient and optimiser are an arbitrary function | minibatches by induction, log-softmax and KL inequalities |
| C54 | tuning: dictionaries, suggestion functions as programs that ask a trial, trials, study, best trial, history; samplers, training and evaluation are arbitrary functions; optuna's `Study` by its documentation | induction over suggestions and trials; counter-examples for fixed names that are reported |
| C55 | the name check as a regular expression, range constructors | equivalence with the documented form; counter-examples (trailing newline, NaN) |
| C56 | `get_n_threads` with Python's `int` of a string, over arbitrary Unicode data | grammar equivalence, decision table |
| C58 | `tune_doubling_dimension` with fuel | induction over rounds; non-termination for every fuel |
| C64 | reads and writes of the study attribute `scores` by any number of workers | induction over schedules; lost update |
| C57 | file system with directory entries and inodes, any number of processes downloading, starting and being killed between any two system calls (`Model/Download`) | invariant over all histories (ownership of temporary names and inodes); a run to completion from every reachable state; counterexamples for truncated responses and the generic downloader |
| C65 | choice of the token and the header (`Model/Download`) | case analysis; counterexample |
| C59 | archive members, rows of behaviours and news, candidates, labels, splits (`Model/Mind`) | induction over rows; uniqueness of the meaning of a row; counterexamples |
| C66 | the state machine of pandas' tokenizer, width check, filling (`Model/Text`) | invariant over the characters of a joined text; counterexamples for quotes |
| C67 | regular expression with search and removal, `int`, `drop_duplicates` (`Model/Datasets`) | matching on well-formed lines, first occurrence of a key; counterexample for repeated users |
| C68 | loop over lines with the count left over from the previous line (`Model/Datasets`) | induction, equivalence with the meaning of the lines |
| C69 | columns 0, 2, 4, 6 of a table read with single colons; nonzero flags (`Model/Datasets`) | the theorem on texts of C66; induction |
| C70 | arrays as views into mutable buffers, the caller's and the evaluator's; the iterable as arbitrary steps on the caller's buffers (`Model/Memory`, `Model/MemoryCold`) | induction over the steps; refinement to the value model of the evaluator; counterexamples for models that return stored arrays and for forbidden items |
| C71 | the bisection over exact reals, the random draws are arguments (`Model/SampleData`) | induction over the rounds; the expected density is monotone and Lipschitz in the bias |
| C72 | a table of the 17 classes (parameters, configuration fields, defaults, checks, tuning ranges), the generic constructor, `from_config` and the registry (`Model/RecClasses`) | facts about the finite table by evaluation, the rest for all arguments by induction; counterexamples where defaults differ |
| C73 | the stacked training matrices and the construction of the evaluators of the example scripts (`Model/Workflow`) on top of the split, score and evaluator models | composition of C25, C29, C50 and the reference evaluation of the evaluators; counterexample for fractional ratings |
| C74 | the native routines again, on arrays of fixed length with checked accesses (`Model/Raw`): compressed rows, `Metrics`, score buffers, results, position buffers, factor matrices | lock-step simulation of the array-level region by the functional one (`run_sim`), row refinement lemmas; counterexamples for unchecked shapes |
| C75 | `Metrics` and the parallel region of the evaluator with a rounding after every operation, in the order of the code (`Model/FloatEval`) | relation "within d roundings" closed under rounding, sum and quotient; simulation of the exact run by the rounded run under the same schedule; round-to-nearest with 53 digits as instance and for the counterexample to bitwise equality |
| C76 | Model/RandomState: the process as a heap of generators, a global generator and an entropy source; the split and sample functions as state transformers over it | each call is a function of the state of its own generator (Proofs/RandomState: locality), hence independence of history; outcomes related to the split models with an extracted oracle; counterexamples for set order and Mult-VAE |
| C77 | Model/Named: dictionaries with string keys in insertion order, the labelling loops, TargetMetric, the history entry | induction over metrics and cutoffs; injectivity of decimal labels; each evaluation gives for a list of cutoffs the reports of the single cutoffs (Proofs/Named) |
| C78 | the two builders as objects in a store with setters, conversions of Python values, the three chains of `IALSTrainer.__init__` (`Model/Builders`) | induction over the calls against 'last value or default' (`Spec/Builders`); refinement of `Recommender.config`/`trainSolver`/`predictionSolver` |
| C79 | `prepare_p`, `compute_reg`, the batched rank update, `step_cholesky` and `user_scores` with a rounding after every operation and Eigen's products in any order of summation (`Model/FloatIals`, `Spec/FloatMachine`) | relation 'within d roundings' closed under rounding, sum, product and any order of addition; Cauchy-Schwarz for the rows of the system; residual bounds give loss bounds by strong convexity; round-to-nearest with 24 digits as instance and for the counterexample to bitwise equality |
| C80 | `Model/IalsInit`: the seeded filling loops of `Solver::initialize` over an abstract generator, memory as an argument, composed with the trainer and the learning loop of C62 | closed form of the loops by induction; C62 for the training |
| C81 | the trainer of C42 stepped for ever, with any threads in every epoch | strong convexity of the loss in each side, telescoping, compactness and continuity; for iALS++ the energy of a chain of exact block solves; with features, joint convexity turns separate optimality of embeddings and weights into joint optimality |
| C82 | constructors, `_create_computer` and `_learn` on keyword arguments, with Python's rule for matching arguments with three signatures | evaluation of the calls for arbitrary arguments, then C36, C60, C61 |
| C83 | Model/LibRecommender: constructors, attribute dictionaries, positional and keyword calls, conversions; libraries as arbitrary functions | unfolding each chain of calls for arbitrary argument lists; meaning of the SLIM, DenseSLIM and EDLAE settings from C37, C39, C40 |
| C84 | Model/IalsArgs: constructor, attribute dictionary, typed arguments, builders (C78), native trainer, epochs | unfolding the chain for arbitrary argument lists; regularisation from C49, epochs and loss from C42 |
| C85 | `learn_with_optimizer` with an evaluator that may change the trainer; Mult-VAE's scoring takes keys from the generator that training uses | simulation of two runs that keep step; invariant on the number of keys taken |
| C86 | the SLIM model of C37-C39: the sweeps, the stopping rule, the workers and the merged weights, over any ordered field (limit: ℝ) | strong convexity of a column's loss; every update pays l2/2 times its squared movement, and the gap after a sweep is bounded by the movements of the sweep, which gives a contraction; compactness for the existence of the solution; the sum of a block's losses bounds the number of sweeps that go on |
| C87 | the existing models of the evaluator, of the KNN and random-walk recommenders, of EDLAE/DenseSLIM, SLIM's documented problem, TopPop, base-class scoring, the iALS trainer with and without features, and df_to_sparse | the specification says what a renaming is, and which neighbours are nearest without ties; each algorithm's characterisation (or, for iALS, each row update) is shown to be the same function of the renamed data; sums over renamed index sets, permuted rows and any interleaving agree; induction over epochs |
| C88 | evaluator core as an object with its cache; attribute dictionaries of the Mult-VAE trainer | invariant over every history of calls |
| C89 | the SLIM model of C37-C39 (workers with their own shuffle counter, blocks claimed from the shared cursor) | invariant: a worker processes its blocks in increasing order, so the assignment of blocks determines every worker's state; counter-examples for the schedule (any generator whose first two shuffles differ) and for the SIMD width (all shuffles, threads, schedules); distance of two runs from the convergence theorems of C86 |
| C90 | the similarity, walk, SLIM, EASE and iALS models; Spec/Scale.lean says what a unit is | each kernel commutes with scaling (sums, norms, soft threshold, Cholesky of a multiple); congruence of the parallel regions; induction over the epochs; three counter-examples for the absolute constants |
| C91 | Model/RecClasses (tuning ranges), SimRecommender, LibRecommender, IalsArgs (construction and training from arguments), Model/Tuning (trials, studies); Spec/TuneTrial says what a trial may suggest | each recommender's totality on its range from C82, C83 and C84; the study by induction over suggestions and trials; C91_tune_cosine composes both |
| C92 | the existing models of all these recommenders, run on the matrix and on the matrix with empty rows or columns added (`Spec/Silent.lean`) | equality of the two runs; for the computers by the row-wise description of the result, for iALS by a simulation between the two training runs (`Proofs/SilentIals.lean`); the exceptions by concrete witnesses |
| C93 | the evaluator and retrieval models (Model/Evaluator, PyEvaluator, Retrieval) | reports over lists that are prefixes of each other are compared user by user (Proofs/Cutoff), lifted to chunks and to `get_scores` through the reference evaluation; retrieval by uniqueness of the best k; a counterexample for precision, nDCG and capped recall |
| C94 | existing models of all recommenders, scores, masks, evaluator and split; `Spec/Zeros.lean` defines the matrix without stored zeros | relation between the two runs, row by row; iALS by equality of the linear systems of each row; counterexamples where stored entries are counted |
| C95 | the fitted recommenders and the iALS trainer, as for C82, C83, C87 | exchanging the two users (or items) is a renumbering that leaves the matrix unchanged, so C87 applies to a run and itself; witnesses for a small top_k and for one conjugate-gradient step |
| C96 | The fits of C82/C83 and the score functions of C50 on two data sets that agree inside one part | Rows of ours contain only our items through transposition, weighting, products, top-k selection and diagonal removal, so both computations see the same entries; for the linear autoencoders the indicator of our items commutes with the regularised Gram matrix and hence with its inverse; for SLIM a column restricted to our items is no worse and the optimum is unique; counterexamples for TopPop, BM25 and iALS |
| C97 | Model/FloatSim.lean: every operation of the similarity computers and of the two walk computers followed by an arbitrary rounding, sums in an arbitrary order, the same driver (chunks, threads, nth_element) as the exact model | relative error calculus (`Within`) by induction over the summation tree; integers are exact; the driver's theorem is generic in the row function |
| C98 | the fits of Model/RecClasses over Model/Similarity and Model/Score, run on two data sets that differ in one row | an item column without v is the same list in both transposes; one entry of a similarity row depends on one row of the transposed matrix; the walk formulas of C36; rows without common items contribute nothing |
| C99 | heap of value and index buffers that matrix objects refer to (Model/Aliasing.lean); scipy's sharing rules and the binding's in-place sort (a parameter) are trusted | frame lemmas for allocation and in-place sorting, sums invariant under permutation; counterexamples by computation |
| C100 | file at the path (absent, without directory, archive with entries), constructor as a function of the downloads of an attempt and of the kill point (Model/ZipParts.lean); zipfile's closing on exceptions trusted | induction over histories; counterexamples by computation |
| C101 | the readers on character lists, eval as a function giving actions and a value (Model/Catalogue.lean) | induction over words and lines; the year pattern against its declarative meaning |
| C102 | `_learn` of every recommender as the list of its assignments, which may be cut off after any of them (`Model/Interrupt.lean`); what is computed is a parameter of each call | induction over the history with an invariant that every assignment keeps; counterexamples for the double assignment of the walks, for differing SVD fits, for epochs and for `load_state` |
| C103 | scores as `Option S` (`none` is NaN), the two comparisons, `std::partial_sort` by its contract | characterisation of when the comparison is a strict weak ordering; uniqueness of the sorted prefix; counterexamples |
| C104 | the CSR rows of the profiles with their duplicate entries (Model/NewProfile), given to the models of the recommenders | the per-item totals of the rows decide each product; permuted rows give the same normal equations; one-factor witnesses for the exceptions |
| C105 | `rowwiseSplit`, `partialUserHoldout`, `holdoutSpecific` (Model/Split) run on all combinations of orders; spec: `chance` counts the orders for which an event happens | counting permutations with given first elements; the group of permutations acts on the shuffles and the program commutes with it, so all assignments of the same sizes have the same number of orders |
| C106 | the fitted recommenders of C82 and the scores of C50, for two data sets that differ in one user | counting the users of two items with and without the one who changes; N D(a+1,b+1) <= (N+1) D(a,b) for each denominator; witnesses for ratings, TF-IDF and iALS |
| C107 | two trainings that differ in one argument: the fits of C82, the solutions of C40, the limits of C86, the embeddings of C45 | rank counting for top_k; the exchange argument f + l g for minimisers (Spec/Direction.lean) |
| C108 | `Model/WorkerFaults.lean`: the work queue with workers that are refused, that fail before their first row or at a row, and the three ways in which the routines collect their workers | simulation by the work queue without failures (so its invariant on rows applies), an induction for the memory of each row, and a counting argument for surviving workers; counterexamples for the routines that drop their workers |
| C109 | Evaluator and ID mapper models composed on one recommender (`Spec/Served.lean`: SameRecommender, IsCandidate) | both lists shown to be best-score lists of one candidate set; uniqueness of the score sequence; counterexamples for ties, single precision and doubled restrictions |
| C110 | The ID mapper of C18/C20 (Model/Retrieval); Spec/Paging.lean adds the restriction of the next page and the items shown by two calls | the row of a batch depends only on that user's scores and allowed list (congruence of the row function); the best of the remaining eligible items appended to the best are the best (k + k'), the best of the merged bests are the best of the union (counting argument), then uniqueness of the scores of a best list |
| C111 | Model/SplitTypes.lean: the conversions around the split of C22 (to double, to int64_t, back to double, back to the source's type); Spec/NumTypes.lean: floating-point numbers of p bits, the values of each type, rounding to nearest | the integer part of a p-bit number is a p-bit number, so the composed conversion is the identity exactly on the representable integers; then C22 for the converted matrix. Existence of the assumed roundings is proved (exists_nearest) |
| C112 | NanArgs.lean: the argument checks and similarity formulas over floating-point numbers with infinities and NaN (exact finite arithmetic); NanServing.lean: the scores of the item-based recommenders from such similarities (no feature weighting, no truncation) | case analysis of the checks; propagation of NaN and infinity through the formulas; positive denominators for finite arguments; NaN in any term of a score and C103 for its evaluation |
| C113 | Evaluator.lean, PyEvaluator.lean (as for C10 to C13); the three evaluations are described by `ReportOn` | every report is the one of Spec/Report.lean (C12); its sums are sums over the list of users, which are additive and do not depend on the order |
| C114 | Evaluator.lean, PyEvaluator.lean (as for C113; both evaluations are described by `ReportOn`) | the list among fewer candidates starts with the items of the old list that are still candidates (uniqueness of the top-k list, C04), so relevant items move up; discounts and precision at each relevant position only grow, by induction on the list, and shorter lists have smaller denominators |
| C115 | Evaluator.lean, PyEvaluator.lean (as for C113; both evaluations are described by `ReportOn`) | every prefix of the second list holds at least as many relevant items (counting argument on top-k lists); DCG and average precision are sums of steps of that count with decreasing weights (summation by parts) |
| C116 | Evaluator.lean, PyEvaluator.lean (as for C113; both evaluations are described by `ReportOn`) | the lists are the same, the counts of relevant items in them grow with the ground truth; counterexamples by evaluation |
| C117 | Evaluator.lean, PyEvaluator.lean (as for C113; the evaluations are described by `ReportOn`) | a metric times the number of valid users is a sum over users of values in [0, 1] (C05, C12), and unchanged users have unchanged lists |
| C118 | Evaluator.lean, PyEvaluator.lean (as for C113; an evaluation for every order, described by `ReportOn`) | the list holds the items placed before the cutoff (C04); by symmetry every item is at every place, and every pair of items at every pair of places, in the same number of orders; the orders without a hit are counted with binomial coefficients; DCG and average precision are sums of steps of the prefix counts (C115); sums over users and orders are exchanged |
| C119 | Evaluator.lean, PyEvaluator.lean (as for C113; the evaluation is described by `ReportOn`) | in a top-k list (C04) of a perfect model the first places are the relevant items, so every prefix count is known; a list without repetitions holds at most min(relevant, cutoff) relevant items, and average precision is at most the share it holds; counterexample by evaluation |
| C120 | The ID mapper of C18/C20 (Model/Retrieval); two recommenders with the same shape | the items that still beat the raised one beat it before, so they were before it in the old list; counting places gives the position, and that the list cannot fill up without the item |

Properties that the code violates are proved false by a concrete witness (theorem names ending in
`_counterexample`), and the true part is kept under a `_partial` theorem.
