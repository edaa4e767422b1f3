import Verif.Spec.Report

/-!
# How far two reports are apart
-/

namespace Irspack.Spec

/-- No accuracy metric of `d` and `e` differs by more than `x`. -/
structure AccuracyWithin (x : ℝ) (d e : Evaluation.MetricDict) : Prop where
  hit : |d.hit - e.hit| ≤ x
  precision : |d.precision - e.precision| ≤ x
  recall : |d.recall - e.recall| ≤ x
  ndcg : |d.ndcg - e.ndcg| ≤ x
  map : |d.map - e.map| ≤ x

end Irspack.Spec
