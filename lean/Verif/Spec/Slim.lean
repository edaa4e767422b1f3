import Mathlib.Algebra.Order.Field.Basic
import Mathlib.Algebra.Order.BigOperators.Group.Finset
import Mathlib.Algebra.BigOperators.Intervals

/-!
# What SLIM is supposed to minimise

The documented problem of `SLIMRecommender`
(/repo/src/irspack/recommenders/slim.py:22-26):

  `½ ‖X - X B‖²_F + (α (1 - l₁) U / 2) ‖B‖²_F + α l₁ U |B|₁`

over matrices `B` with zero diagonal (and non-negative entries with `positive_only`).  `A u f` is the
interaction of user `u < U` with item `f < F`.
-/

namespace Irspack.Spec.Slim

variable {K : Type} [Field K] [LinearOrder K]

/-- The part of the objective that involves column `b` of `B` when item `j` is predicted from the
other items: `½ Σ_u (A u j - Σ_f A u f b_f)² + ½ l2 Σ_f b_f² + l1 Σ_f |b_f|`. -/
def columnLoss (A : Nat → Nat → K) (U F : Nat) (l2 l1 : K) (j : Nat) (b : Nat → K) : K :=
  (∑ u ∈ Finset.range U, (A u j - ∑ f ∈ Finset.range F, A u f * b f) ^ 2) / 2
    + l2 / 2 * ∑ f ∈ Finset.range F, b f ^ 2 + l1 * ∑ f ∈ Finset.range F, |b f|

/-- The documented loss of the whole weight matrix. -/
def documentedLoss (A : Nat → Nat → K) (U F : Nat) (α l₁ : K) (B : Nat → Nat → K) : K :=
  1 / 2 * (∑ u ∈ Finset.range U, ∑ j ∈ Finset.range F,
      (A u j - ∑ f ∈ Finset.range F, A u f * B f j) ^ 2)
    + α * (1 - l₁) * U / 2 * (∑ f ∈ Finset.range F, ∑ j ∈ Finset.range F, B f j ^ 2)
    + α * l₁ * U * (∑ f ∈ Finset.range F, ∑ j ∈ Finset.range F, |B f j|)

/-- Column `b` satisfies the constraints for item `j`: no self-weight, and no negative weight if
`positive_only`. -/
def Feasible (positiveOnly : Bool) (F j : Nat) (b : Nat → K) : Prop :=
  b j = 0 ∧ (positiveOnly = true → ∀ f, f < F → 0 ≤ b f)

/-- The share of the distance to the optimum that a sweep may leave, for `F` items, `M` a bound of the squared
lengths of the columns of the data and `l2` the quadratic penalty: `F³ M² / (F³ M² + l2²)`. -/
def rate (F : Nat) (M l2 : K) : K := (F : K) ^ 3 * M ^ 2 / ((F : K) ^ 3 * M ^ 2 + l2 ^ 2)

/-- Weights that satisfy the constraints, and whose documented loss no weights that satisfy them undercut. -/
def Optimal (positiveOnly : Bool) (A : Nat → Nat → K) (U F : Nat) (α l₁ : K) (B : Nat → Nat → K) : Prop :=
  (∀ j, j < F → Feasible positiveOnly F j (fun f => B f j)) ∧
  ∀ B' : Nat → Nat → K, (∀ j, j < F → Feasible positiveOnly F j (fun f => B' f j)) →
    documentedLoss A U F α l₁ B ≤ documentedLoss A U F α l₁ B'

end Irspack.Spec.Slim
