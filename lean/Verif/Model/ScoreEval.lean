import Verif.Model.Score
import Verif.Model.PyEvaluator

/-! # A recommender as the evaluator sees it (/repo/src/irspack/evaluation/evaluator.py:400-441) -/

namespace Irspack.Score

variable {R S : Type} [Semiring R] [DecidableEq R]

/-- The evaluator calls `model.get_score_block(a, b)`, `model.get_score(np.arange(a, b))` and reads
`model.X_train_all`, `n_users` and `n_items` (evaluator.py:404-430).  `emb` embeds the numbers into the
ordered set of scores. -/
def Recommender.seenByEvaluator (emb : R → S) (r : Recommender R) : Evaluation.Recommender S where
  nUsers := r.X.nrows
  nItems := r.X.cols
  getScoreBlock a b := (r.getScoreBlock a b).map (fun s => s.rows.map (fun row j => emb (row j)))
  getScore idx := (r.getScore (List.map (fun u : Nat => (u : Int)) idx)).map
    (fun s => s.rows.map (fun row j => emb (row j)))
  trainNz u j := nonzeroAt r.X u j

end Irspack.Score
