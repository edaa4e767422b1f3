import Mathlib.Analysis.SpecialFunctions.Log.NegMulLog
import Mathlib.Algebra.BigOperators.Group.Finset.Basic

/-!
# Textbook definitions of the aggregate diversity metrics

`cnt i` is how often item `i < n` was recommended.  Nothing here refers to the model of the code.
-/

namespace Irspack.Spec

/-- total number of recommendations -/
def totalCount (n : Nat) (cnt : Nat → Nat) : Nat := ∑ i ∈ Finset.range n, cnt i

/-- number of distinct items recommended at least once -/
def appeared (n : Nat) (cnt : Nat → Nat) : Nat := ((Finset.range n).filter (fun i => cnt i ≠ 0)).card

/-- Shannon entropy (in nats) of the share of recommendations each item gets -/
noncomputable def entropy (n : Nat) (cnt : Nat → Nat) : ℝ :=
  ∑ i ∈ Finset.range n, Real.negMulLog ((cnt i : ℝ) / totalCount n cnt)

/-- Gini index: mean absolute difference over twice the mean -/
noncomputable def gini (n : Nat) (cnt : Nat → Nat) : ℝ :=
  (∑ i ∈ Finset.range n, ∑ j ∈ Finset.range n, |(cnt i : ℝ) - cnt j|) /
    (2 * n * totalCount n cnt)

end Irspack.Spec
