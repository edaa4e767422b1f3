import Verif.Model.Split
import Verif.Model.ScoreEval

/-!
# The hold-out workflow of the documentation

`split_dataframe_partial_user_holdout`, training on stacked matrices and evaluation on the held-out part,
as in /repo/examples/hyperparameter-optimization.ipynb (the last code cells),
/repo/examples/movielens/movielens_1m.py and /repo/examples/movielens/movielens_1m_cold.py.  The parts are
the models of the library functions; this file only connects them.
-/

namespace Irspack.Workflow

open Irspack Irspack.Split Irspack.Evaluation

/-- `scipy.sparse.vstack` (movielens_1m.py:42-47, movielens_1m_cold.py:43-45): the rows of all blocks; the
blocks must have the same number of columns, and there must be one. -/
def vstack : List (Csr ℝ) → Except Err (Csr ℝ)
  | [] => .error .valueError
  | A :: rest =>
    if rest.all (fun B => decide (B.nCols = A.nCols)) then .ok ⟨A.nCols, (A :: rest).flatMap Csr.rows⟩
    else .error .valueError

/-- The same matrix as the record used by the recommender models. -/
def toCSR (X : Csr ℝ) : CSR ℝ := ⟨X.nCols, X.rows⟩

/-- What `Evaluator(ground_truth=X)` reads of `X`: the stored columns of each row
(evaluator.py:114-115; evaluator.cpp:226-250). -/
def storedRows (X : Csr ℝ) : List (List Nat) := X.rows.map (fun row => row.map Prod.fst)

section
variable {U I : Type} [LinearOrder U] [LinearOrder I]

/-- The matrix for tuning: `vstack([train.X_all, val.X_train])` (hyperparameter-optimization.ipynb). -/
noncomputable def tuningMatrix (H : Holdout U I) : Except Err (Csr ℝ) :=
  vstack [H.train.xAll, H.val.xTrain]

/-- The matrix for tuning with the test users' learning part: `vstack([train.X_train, val.X_train,
test.X_train])` (movielens_1m.py:42-44). -/
noncomputable def tuningMatrix3 (H : Holdout U I) : Except Err (Csr ℝ) :=
  vstack [H.train.xTrain, H.val.xTrain, H.test.xTrain]

/-- The matrix for the final model: `vstack([train.X_all, val.X_all, test.X_train])`
(movielens_1m.py:45-47). -/
noncomputable def finalMatrix (H : Holdout U I) : Except Err (Csr ℝ) :=
  vstack [H.train.xAll, H.val.xAll, H.test.xTrain]

/-- The same by `train.concat(val)`, with the offset `n_users` of the result
(hyperparameter-optimization.ipynb). -/
noncomputable def finalMatrixConcat (H : Holdout U I) : Except Err (Csr ℝ × Nat) :=
  match H.train.concat H.val with
  | .error e => .error e
  | .ok tv =>
    match vstack [tv.xAll, H.test.xTrain] with
    | .error e => .error e
    | .ok X => .ok (X, tv.userIds.length)

/-- `Evaluator(val.X_test, offset=train.n_users, cutoff=…)` (movielens_1m.py:48-52). -/
def valEvaluator (H : Holdout U I) (cutoff nThreads : Nat) (capped : Bool) (mb : Nat) :
    Except Err Evaluator :=
  Evaluator.make (storedRows H.val.xTest) H.val.xTest.nCols H.train.userIds.length cutoff none none none
    nThreads capped mb

/-- `Evaluator(test.X_test, offset=train.n_users + val.n_users, cutoff=…)` (movielens_1m.py:53-57). -/
def testEvaluator (H : Holdout U I) (cutoff nThreads : Nat) (capped : Bool) (mb : Nat) :
    Except Err Evaluator :=
  Evaluator.make (storedRows H.test.xTest) H.test.xTest.nCols
    (H.train.userIds.length + H.val.userIds.length) cutoff none none none nThreads capped mb

open Classical in
/-- `X.nonzero()` as a mask (evaluator.py:568-584). -/
noncomputable def nzMask (X : Csr ℝ) : Mask :=
  ⟨X.rows.length, X.nCols, fun u i => Score.nonzeroAt (toCSR X) u i⟩

/-- `EvaluatorWithColdUser(input_interaction=P.X_train, ground_truth=P.X_test, cutoff=…)`
(movielens_1m_cold.py:46-55). -/
noncomputable def coldEvaluator (P : UserPair U I) (cutoff nThreads : Nat) (capped : Bool) (mb : Nat) :
    Except Err ColdEvaluator :=
  ColdEvaluator.make (nzMask P.xTrain) (storedRows P.xTest) P.xTest.nCols cutoff none none none nThreads
    capped mb none

/-- A recommender as `EvaluatorWithColdUser` sees it: `get_score_cold_user(input[a:b])`
(evaluator.py:586-628). -/
def seenByColdEvaluator {S : Type} (emb : ℝ → S) (r : Score.Recommender ℝ) (input : Csr ℝ) :
    ColdRecommender S where
  nItems := r.X.cols
  coldUser a b := (r.getScoreColdUser (Score.sliceRows (toCSR input) a b)).map
    (fun s => (s.cols, s.rows.map (fun row j => emb (row j))))
  featureScorer := .error .notImplemented

end

end Irspack.Workflow
