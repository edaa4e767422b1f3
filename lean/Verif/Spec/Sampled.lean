import Verif.Spec.Report

/-!
# Reports among fewer candidates
-/

namespace Irspack.Spec

/-- `e` counts the same users as `d`, and no accuracy metric of `e` is below that of `d`. -/
structure NoLower (d e : Evaluation.MetricDict) : Prop where
  totalUser : e.totalUser = d.totalUser
  validUser : e.validUser = d.validUser
  hit : d.hit ≤ e.hit
  precision : d.precision ≤ e.precision
  recall : d.recall ≤ e.recall
  ndcg : d.ndcg ≤ e.ndcg
  map : d.map ≤ e.map

end Irspack.Spec
