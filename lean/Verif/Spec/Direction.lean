import Verif.Spec.SimRecommender
import Verif.Spec.Ease
import Verif.Spec.Slim

/-!
# What turning a knob should do
-/

namespace Irspack.Spec.Direction

/-- Every neighbour of `W` is a neighbour in `W'`, with the same similarity, and the neighbours that only `W'` has are
not more similar than those both have. -/
structure Nested (W W' : CSR ℝ) : Prop where
  kept : ∀ i j, j ∈ (W.row i).map Prod.fst → j ∈ (W'.row i).map Prod.fst ∧ W'.get i j = W.get i j
  best : ∀ i j j', j ≠ i → j' ≠ i → j ∈ (W.row i).map Prod.fst → j' ∈ (W'.row i).map Prod.fst →
    j' ∉ (W.row i).map Prod.fst → W'.get i j' ≤ W'.get i j

/-- The same for weights stored by column. -/
structure NestedColumns (W W' : CSC ℝ) : Prop where
  kept : ∀ i, ∀ e ∈ W.cols.getD i [], e ∈ W'.cols.getD i []
  best : ∀ i, ∀ e ∈ W.cols.getD i [], ∀ f ∈ W'.cols.getD i [], f ∉ W.cols.getD i [] → f.2 ≤ e.2

/-- Similarities that are pulled towards zero: none grows, none becomes negative, and if the pull is `stronger` every
positive one falls. -/
structure Shrunk (n : Nat) (stronger : Prop) (W W' : CSR ℝ) : Prop where
  le : ∀ i < n, ∀ j < n, 0 ≤ W'.get i j ∧ W'.get i j ≤ W.get i j
  lt : stronger → ∀ i < n, ∀ j < n, 0 < W.get i j → W'.get i j < W.get i j

/-- Arguments that mean: this shrinkage, `k` neighbours, `T` threads, and no argument outside `names`. -/
structure Means (e : RecClasses.Env) (names : List String) (given : RecClasses.Args) (s : ℚ) (k T : Nat) : Prop where
  only : RecClasses.Only given names
  shrinkage : RecClasses.Argument given "shrinkage" (.num 0) (.num s)
  topK : RecClasses.Argument given "top_k" (.num 100) (.num k)
  threads : RecClasses.ThreadsAre e given T
  nonneg : 0 ≤ s
  pos : 1 ≤ T

/-- `‖X - X B‖²` -/
def fitError {K : Type} [Field K] {U F : Nat} (X : Matrix (Fin U) (Fin F) K) (B : Matrix (Fin F) (Fin F) K) : K :=
  ∑ u, ∑ j, (X u j - ∑ f, X u f * B f j) ^ 2

/-- `‖B‖²` -/
def sizeSq {K : Type} [Field K] {F : Nat} (B : Matrix (Fin F) (Fin F) K) : K := ∑ i, ∑ j, B i j ^ 2

/-- what dropping out the input of item `i` costs: `Σ_i ‖x_i‖² Σ_j B_ij²` -/
def droppedSq {K : Type} [Field K] {U F : Nat} (X : Matrix (Fin U) (Fin F) K) (B : Matrix (Fin F) (Fin F) K) : K :=
  ∑ i, (∑ u, X u i ^ 2) * ∑ j, B i j ^ 2

/-- what the elastic net with this `l1_ratio` charges for weights: `½ (1 - l₁) ‖B‖² + l₁ |B|₁` -/
noncomputable def elastic (F : Nat) (l₁ : ℝ) (B : Nat → Nat → ℝ) : ℝ :=
  (1 - l₁) / 2 * (∑ f ∈ Finset.range F, ∑ j ∈ Finset.range F, B f j ^ 2)
    + l₁ * (∑ f ∈ Finset.range F, ∑ j ∈ Finset.range F, |B f j|)

/-- `‖A - A B‖²` -/
noncomputable def residual (A : Nat → Nat → ℝ) (U F : Nat) (B : Nat → Nat → ℝ) : ℝ :=
  ∑ u ∈ Finset.range U, ∑ j ∈ Finset.range F, (A u j - ∑ f ∈ Finset.range F, A u f * B f j) ^ 2

end Irspack.Spec.Direction
