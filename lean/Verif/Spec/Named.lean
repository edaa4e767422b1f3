import Verif.Model.Named

/-!
# Specification vocabulary for C77
-/

namespace Irspack.Evaluation.Named

open Irspack Irspack.Evaluation

/-- The label that the documentation promises, such as `ndcg@20`. -/
def label (name : String) (cutoff : Nat) : List Char := (name ++ "@" ++ toString cutoff).toList

/-- The names of the reported metrics, in the order of a report. -/
def reported : List String :=
  ["hit", "recall", "ndcg", "map", "precision", "gini_index", "entropy", "appeared_item",
    "catalog_coverage"]

/-- The number a report holds for a metric (`none` for NaN, or for a name that is not reported). -/
noncomputable def valueOf (d : PyDict) (name : String) : Option ℝ :=
  if name = "hit" then some d.base.hit
  else if name = "recall" then some d.base.recall
  else if name = "ndcg" then some d.base.ndcg
  else if name = "map" then some d.base.map
  else if name = "precision" then some d.base.precision
  else if name = "gini_index" then some d.base.giniIndex
  else if name = "entropy" then some d.base.entropy
  else if name = "appeared_item" then some d.base.appearedItem
  else if name = "catalog_coverage" then d.coverage
  else none

/-- The metrics that can be the target of a tuning run. -/
def targets : List String := ["ndcg", "recall", "hit", "map", "precision"]

/-- The evaluations offered by the two evaluator classes. -/
inductive IsSource {S : Type} [LinearOrder S] [OrderBot S] : Source → Prop where
  | model (ev : Evaluator) (r : Recommender S) : IsSource (ofModel ev r)
  | matrix (ev : Evaluator) (m : Chunk S) : IsSource (ofMatrix ev m)
  | chunks (ev : Evaluator) (l : List (Chunk S)) : IsSource (ofChunks ev l)
  | coldModel (ev : ColdEvaluator) (r : ColdRecommender S) : IsSource (ofColdModel ev r)
  | coldMatrix (ev : ColdEvaluator) (m : Chunk S) : IsSource (ofColdMatrix ev m)

end Irspack.Evaluation.Named
