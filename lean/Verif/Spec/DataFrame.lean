import Verif.Spec.Ranking
import Verif.Model.Evaluator
import Mathlib.Analysis.SpecialFunctions.Log.NegMulLog

/-!
# What the evaluation of two data frames should report

Everything is in terms of the identifiers in the frames.  Only the record type of the report comes
from the model.
-/

namespace Irspack.Spec

variable {U I : Type} [DecidableEq U] [DecidableEq I]

/-- users with a row in both frames -/
def commonUsers (recs gt : List (U × I)) : Finset U :=
  (recs.map Prod.fst).toFinset ∩ (gt.map Prod.fst).toFinset

/-- the items of a user's rows, in row order -/
def itemsOf (df : List (U × I)) (u : U) : List I :=
  (df.filter (fun r => decide (r.1 = u))).map Prod.snd

/-- the items of a user's rows, as a set -/
def itemSet (df : List (U × I)) (u : U) : Finset I := (itemsOf df u).toFinset

/-- mean over the common users (0 if there are none) -/
noncomputable def meanUsers (recs gt : List (U × I)) (f : List I → Finset I → ℝ) : ℝ :=
  (∑ u ∈ commonUsers recs gt, f (itemsOf recs u) (itemSet gt u)) / (commonUsers recs gt).card

/-- the items that occur in the rows of common users -/
def allItems (recs gt : List (U × I)) : Finset I :=
  (commonUsers recs gt).biUnion (fun u => itemSet recs u ∪ itemSet gt u)

/-- how often an item is recommended to common users -/
def timesRecommended (recs gt : List (U × I)) (i : I) : Nat :=
  ∑ u ∈ commonUsers recs gt, (itemsOf recs u).count i

/-- number of recommendations to common users -/
def allRecommended (recs gt : List (U × I)) : Nat :=
  ∑ i ∈ allItems recs gt, timesRecommended recs gt i

/-- Some user's recommendation list has a relevant item at a rank beyond the number of distinct items.
Only a list with repetitions is that long. -/
def LateHit (recs gt : List (U × I)) : Prop :=
  ∃ u ∈ commonUsers recs gt, ∃ i ∈ (itemsOf recs u).drop (allItems recs gt).card, i ∈ itemSet gt u

/-- `d` is the report for the two frames. -/
structure IsFrameReport (recs gt : List (U × I)) (d : Evaluation.MetricDict) : Prop where
  totalUser : d.totalUser = (commonUsers recs gt).card
  validUser : d.validUser = (commonUsers recs gt).card
  itemNumber : d.nItems = (allItems recs gt).card
  hit : d.hit = meanUsers recs gt hit
  precision : d.precision = meanUsers recs gt precision
  recall : d.recall = meanUsers recs gt (recall false)
  ndcg : d.ndcg = meanUsers recs gt ndcg
  map : d.map = meanUsers recs gt averagePrecision
  appearedItem : d.appearedItem =
    ((allItems recs gt).filter (fun i => timesRecommended recs gt i ≠ 0)).card
  entropy : d.entropy = ∑ i ∈ allItems recs gt,
    Real.negMulLog ((timesRecommended recs gt i : ℝ) / allRecommended recs gt)
  giniIndex : d.giniIndex =
    (∑ i ∈ allItems recs gt, ∑ j ∈ allItems recs gt,
      |(timesRecommended recs gt i : ℝ) - timesRecommended recs gt j|) /
    (2 * (allItems recs gt).card * allRecommended recs gt)

end Irspack.Spec
