import Mathlib.Data.Nat.Digits.Defs
import Verif.Model.PyEvaluator

/-!
# The dictionaries returned by the evaluators

`Model/PyEvaluator.lean` keeps the values of a report in a record.  Here they are the Python
dictionaries with string keys that the user gets, in the order of insertion.
-/

namespace Irspack.Evaluation.Named

open Irspack Irspack.Evaluation

/-- A Python `dict` (or `OrderedDict`) with string keys: the entries in the order of insertion. -/
abbrev Dict (V : Type) := List (List Char × V)

variable {V : Type}

/-- `d[k]`, `KeyError` if there is no such key -/
def Dict.get (d : Dict V) (k : List Char) : Except Err V :=
  match d.lookup k with
  | some v => .ok v
  | none => .error .keyError

/-- `d[k] = v`: an existing key keeps its place. -/
def Dict.set (d : Dict V) (k : List Char) (v : V) : Dict V :=
  if k ∈ d.map Prod.fst then d.map (fun e => if e.1 = k then (k, v) else e) else d ++ [(k, v)]

/-- `METRIC_NAMES` (evaluator.py:26-36) -/
def metricNames : List (List Char) :=
  ["hit".toList, "recall".toList, "ndcg".toList, "map".toList, "precision".toList, "gini_index".toList,
    "entropy".toList, "appeared_item".toList, "catalog_coverage".toList]

/-- The entries of `Metrics::as_dict` (evaluator.cpp:109-121), in the order of the `std::map`, and
`catalog_coverage` (evaluator.py:326-334).  `none` stands for NaN. -/
noncomputable def ofReport (d : PyDict) : Dict (Option ℝ) :=
  [("appeared_item".toList, some d.base.appearedItem), ("entropy".toList, some d.base.entropy),
    ("gini_index".toList, some d.base.giniIndex), ("hit".toList, some d.base.hit),
    ("map".toList, some d.base.map), ("n_items".toList, some d.base.nItems),
    ("ndcg".toList, some d.base.ndcg), ("precision".toList, some d.base.precision),
    ("recall".toList, some d.base.recall), ("total_user".toList, some d.base.totalUser),
    ("valid_user".toList, some d.base.validUser), ("catalog_coverage".toList, d.coverage)]

/-- `f"{name}@{cutoff}"` (evaluator.py:149, 226, 267, 323; optimizer.py:29) -/
def key (name : List Char) (cutoff : Nat) : List Char := name ++ '@' :: Nat.toDigits 10 cutoff

/-- `for metric_name in METRIC_NAMES: result[f"{metric_name}@{cutoff}"] = score[metric_name]`
(evaluator.py:225-226, 266-267, 322-323) -/
def addCutoff (score : Dict V) (cutoff : Nat) :
    List (List Char) → Dict V → Except Err (Dict V)
  | [], result => .ok result
  | name :: names, result =>
    match score.get name with
    | .error e => .error e
    | .ok v => addCutoff score cutoff names (result.set (key name cutoff) v)

/-- `for cutoff, score in zip(cutoffs, scores): …` (evaluator.py:224-226, 265-267, 321-323) -/
def addAll : List (Nat × Dict V) → Dict V → Except Err (Dict V)
  | [], result => .ok result
  | p :: rest, result =>
    match addCutoff p.2 p.1 metricNames result with
    | .error e => .error e
    | .ok result' => addAll rest result'

/-- The reports of one kind of evaluation for a list of cutoffs (`_get_scores_as_list`,
`_get_scores_from_score_matrix_as_list`, `_get_scores_from_score_chunks_as_list`). -/
abbrev Source := List Nat → Except Err (List PyDict)

/-- `get_score`, `get_score_from_score_matrix`, `get_score_from_score_chunks`
(evaluator.py:205, 247, 290-292) for the evaluator's own cutoff. -/
noncomputable def getScore (src : Source) (cutoff : Nat) : Except Err (Dict (Option ℝ)) :=
  match src [cutoff] with
  | .error e => .error e
  | .ok [] => .error .indexError
  | .ok (d :: _) => .ok (ofReport d)

/-- `get_scores`, `get_scores_from_score_matrix`, `get_scores_from_score_chunks`
(evaluator.py:222-227, 263-268, 317-324) -/
noncomputable def getScores (src : Source) (cutoffs : List Nat) : Except Err (Dict (Option ℝ)) :=
  match src cutoffs with
  | .error e => .error e
  | .ok ds => addAll (cutoffs.zip (ds.map ofReport)) []

/-- `TargetMetric` (evaluator.py:18-23) -/
inductive TargetMetric where
  | ndcg
  | recall
  | hit
  | map
  | precision
  deriving DecidableEq

/-- `self.target_metric.name` -/
def TargetMetric.name : TargetMetric → List Char
  | .ndcg => "ndcg".toList
  | .recall => "recall".toList
  | .hit => "hit".toList
  | .map => "map".toList
  | .precision => "precision".toList

/-- `TargetMetric[target_metric]` in the constructor (evaluator.py:147) -/
def targetOf (s : List Char) : Except Err TargetMetric :=
  if s = "ndcg".toList then .ok .ndcg
  else if s = "recall".toList then .ok .recall
  else if s = "hit".toList then .ok .hit
  else if s = "map".toList then .ok .map
  else if s = "precision".toList then .ok .precision
  else .error .keyError

/-- `get_target_score` (evaluator.py:185-194) -/
noncomputable def getTargetScore (src : Source) (target : TargetMetric) (cutoff : Nat) :
    Except Err (Option ℝ) :=
  match getScore src cutoff with
  | .error e => .error e
  | .ok d => d.get target.name

/-- The dictionary that a trial adds to the history, `{f"{name}@{cutoff}": value …}`
(optimizer.py:26-32) -/
def historyEntry (score : Dict V) (cutoff : Nat) : Dict V :=
  score.foldl (fun d e => d.set (key e.1 cutoff) e.2) []

/-- The value that a trial hands to optuna: `-score[target_metric.name]` (optimizer.py:137, 148, 156);
`none` stands for NaN. -/
noncomputable def objectiveValue (score : Dict (Option ℝ)) (target : TargetMetric) :
    Except Err (Option ℝ) :=
  match score.get target.name with
  | .error e => .error e
  | .ok v => .ok (v.map (fun x => -x))

section sources
variable {S : Type} [LinearOrder S] [OrderBot S]

/-- Evaluation of a recommender. -/
noncomputable def ofModel (ev : Evaluator) (r : Recommender S) : Source := ev.scoresOfModel r

/-- Evaluation of a score matrix. -/
noncomputable def ofMatrix (ev : Evaluator) (m : Chunk S) : Source := ev.scoresFromMatrix m

/-- Evaluation of an iterable of row blocks, which is consumed by one call. -/
noncomputable def ofChunks (ev : Evaluator) (chunks : List (Chunk S)) : Source :=
  ev.scoresFromChunks chunks

/-- Evaluation of a recommender on unseen users. -/
noncomputable def ofColdModel (ev : ColdEvaluator) (r : ColdRecommender S) : Source := ev.scoresOfModel r

/-- Evaluation of a score matrix for unseen users. -/
noncomputable def ofColdMatrix (ev : ColdEvaluator) (m : Chunk S) : Source := ev.scoresFromMatrix m

end sources

end Irspack.Evaluation.Named
