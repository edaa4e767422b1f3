import Verif.Spec.Ranking
import Verif.Spec.Retrieval
import Verif.Model.PyEvaluator
import Verif.Model.Retrieval

/-!
# Evaluating a recommender and serving it to the same users

Only the record types of a recommender, as the evaluator and as the ID mapper see it, come from the
model.
-/

namespace Irspack.Spec

variable {I S : Type}

/-- `r'` (as the ID mapper sees it) is the recommender `r` (as the evaluator sees it): same users, items
and training interactions, and the same rows of scores. -/
structure SameRecommender (r : Evaluation.Recommender S) (r' : Retrieval.Rec S) : Prop where
  users : r'.nUsers = r.nUsers
  items : r'.nItems = r.nItems
  seen : r'.trainNz = r.trainNz
  scores : ∀ idx rows, r.getScore idx = .ok rows →
    r'.getScore idx = .ok (rows.map (fun row => (List.range r.nItems).map row))

/-- The IDs of the items with these numbers. -/
def idsOf (itemIds : List I) (l : List Nat) : List I := l.filterMap (fun i => itemIds[i]?)

/-- The items that may be recommended to the evaluator's user `u` (user `offset + u` of the recommender):
the recommendable ones that the user has no training interaction with and that are not scored
`-inf`. -/
def IsCandidate [LinearOrder S] [OrderBot S] (nItems : Nat) (recLists : List (List Nat))
    (seen : Nat → Nat → Bool) (score : Nat → Nat → S) (offset u i : Nat) : Prop :=
  i < nItems ∧ RecommendableTo recLists u i ∧ seen (offset + u) i = false ∧ score (offset + u) i ≠ ⊥

/-- The items of a served list, as item numbers. -/
def numbers {F : Type} [DecidableEq I] (itemIds : List I) (l : List (I × F)) : List Nat :=
  l.map (fun p => itemIds.idxOf p.1)

end Irspack.Spec
