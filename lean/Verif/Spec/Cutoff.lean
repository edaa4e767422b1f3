import Verif.Spec.Report

/-!
# How evaluation reports at different cutoffs compare

`d` is the report for lists of at most `k` items, `d'` the report of the same scores for lists of at
most `k'` items.  Only the record type of the report comes from the model.
-/

namespace Irspack.Spec

/-- What a longer list can and cannot change.  Hits, average precision and the items shown can only
grow, and so does recall unless it is capped by the length of the list.  Precision, nDCG and capped
recall can fall, but only by the factor between the normalisers of the two cutoffs. -/
structure GrowsWith (k k' : Nat) (capped : Bool) (d d' : Evaluation.MetricDict) : Prop where
  totalUser : d'.totalUser = d.totalUser
  validUser : d'.validUser = d.validUser
  hit : d.hit ≤ d'.hit
  map : d.map ≤ d'.map
  recall : capped = false → d.recall ≤ d'.recall
  appearedItem : d.appearedItem ≤ d'.appearedItem
  precision : k * d.precision ≤ k' * d'.precision
  cappedRecall : k * d.recall ≤ k' * d'.recall
  ndcg : idealDcg k * d.ndcg ≤ idealDcg k' * d'.ndcg

/-- How the metrics of one report are ordered. -/
structure MetricsOrdered (k : Nat) (capped : Bool) (d : Evaluation.MetricDict) : Prop where
  precision_le_hit : d.precision ≤ d.hit
  recall_le_hit : d.recall ≤ d.hit
  ndcg_le_hit : d.ndcg ≤ d.hit
  map_le_recall : d.map ≤ d.recall
  precision_le_recall : capped = true → d.precision ≤ d.recall
  /-- on average at most one hit per place of the list -/
  hit_le : d.hit ≤ k * d.precision
  /-- a list of one item is either right or wrong -/
  single : k = 1 → d.precision = d.hit ∧ d.ndcg = d.hit ∧ (capped = true → d.recall = d.hit)

end Irspack.Spec
