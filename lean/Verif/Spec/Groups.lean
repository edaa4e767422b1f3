import Verif.Spec.Report

/-!
# Reports for groups of users
-/

namespace Irspack.Spec

/-- `d` is what the reports `a` and `b` of two groups of users say about all of them: users are added up, each
accuracy metric is the mean of the groups' values weighted by their valid users, and the items that appear are those
that appear in either group. -/
structure Combines (d a b : Evaluation.MetricDict) : Prop where
  totalUser : d.totalUser = a.totalUser + b.totalUser
  validUser : d.validUser = a.validUser + b.validUser
  nItems : d.nItems = a.nItems ∧ d.nItems = b.nItems
  hit : d.validUser * d.hit = a.validUser * a.hit + b.validUser * b.hit
  precision : d.validUser * d.precision = a.validUser * a.precision + b.validUser * b.precision
  recall : d.validUser * d.recall = a.validUser * a.recall + b.validUser * b.recall
  ndcg : d.validUser * d.ndcg = a.validUser * a.ndcg + b.validUser * b.ndcg
  map : d.validUser * d.map = a.validUser * a.map + b.validUser * b.map
  appeared : a.appearedItem ≤ d.appearedItem ∧ b.appearedItem ≤ d.appearedItem ∧
    d.appearedItem ≤ a.appearedItem + b.appearedItem

end Irspack.Spec
