import Mathlib.LinearAlgebra.Matrix.Defs
import Mathlib.Data.Matrix.Mul

/-! # The least-squares problem of DenseSLIM and EDLAE -/

namespace Irspack.Spec.Ease

variable {K : Type} [Field K] {U F : Nat}

/-- `‖X - X B‖² + Σ_i penalty_i Σ_j B_ij²` -/
def loss (X : Matrix (Fin U) (Fin F) K) (penalty : Fin F → K) (B : Matrix (Fin F) (Fin F) K) : K :=
  ∑ u, ∑ j, (X u j - ∑ f, X u f * B f j) ^ 2 + ∑ i, penalty i * ∑ j, B i j ^ 2

/-- EDLAE's penalty of item `i`: `p / (1 - p)` times the squared norm of its column, plus `reg`. -/
def dropoutPenalty (X : Matrix (Fin U) (Fin F) K) (reg p : K) (i : Fin F) : K :=
  p / (1 - p) * ∑ u, X u i ^ 2 + reg

/-- no item is predicted from itself -/
def ZeroDiagonal (B : Matrix (Fin F) (Fin F) K) : Prop := ∀ i, B i i = 0

end Irspack.Spec.Ease
