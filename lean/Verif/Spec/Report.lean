import Verif.Spec.Ranking
import Verif.Spec.Diversity
import Verif.Model.Evaluator

/-!
# What an evaluation report should say

`n` users; user `u` was recommended the list `L u` and has the relevant set `G u`.
Only the record type of the report comes from the model.
-/

namespace Irspack.Spec

/-- users with at least one relevant item -/
def validUsers (n : Nat) (G : Nat → Finset Nat) : Finset Nat :=
  (Finset.range n).filter (fun u => (G u).Nonempty)

/-- how often item `i` is recommended to the valid users -/
def recommendedCount (n : Nat) (L : Nat → List Nat) (G : Nat → Finset Nat) (i : Nat) : Nat :=
  ∑ u ∈ validUsers n G, (L u).count i

/-- mean of a per-user value over the valid users (0 if there are none) -/
noncomputable def meanOver (n : Nat) (G : Nat → Finset Nat) (f : Nat → ℝ) : ℝ :=
  (∑ u ∈ validUsers n G, f u) / (validUsers n G).card

/-- `d` is the report for these users: user counts, mean accuracy, diversity of the recommended
items. -/
structure IsReport (n nItems : Nat) (capped : Bool) (L : Nat → List Nat) (G : Nat → Finset Nat)
    (d : Evaluation.MetricDict) : Prop where
  totalUser : d.totalUser = n
  validUser : d.validUser = (validUsers n G).card
  itemNumber : d.nItems = nItems
  hit : d.hit = meanOver n G (fun u => Spec.hit (L u) (G u))
  precision : d.precision = meanOver n G (fun u => Spec.precision (L u) (G u))
  recall : d.recall = meanOver n G (fun u => Spec.recall capped (L u) (G u))
  ndcg : d.ndcg = meanOver n G (fun u => Spec.ndcg (L u) (G u))
  map : d.map = meanOver n G (fun u => Spec.averagePrecision (L u) (G u))
  appearedItem : d.appearedItem = appeared nItems (recommendedCount n L G)
  entropy : d.entropy = Spec.entropy nItems (recommendedCount n L G)
  giniIndex : d.giniIndex = gini nItems (recommendedCount n L G)

end Irspack.Spec
