import Verif.Model.Score
import Mathlib.Data.Real.Basic
import Mathlib.Data.Matrix.Basic

/-!
# Two populations that share neither users nor items
-/

namespace Irspack.Spec.Separate

/-- The users `ours` have used only the items `mine`, and nobody else has used those: the data fall into two parts. -/
def Apart (X : CSR ℝ) (ours mine : Nat → Prop) : Prop := ∀ u e, e ∈ X.row u → (ours u ↔ mine e.1)

/-- Two data sets of the same shape, both in two parts, in which our users did the same.  What the others did is
arbitrary. -/
structure SameInside (X X' : CSR ℝ) (ours mine : Nat → Prop) : Prop where
  cols : X'.cols = X.cols
  nrows : X'.nrows = X.nrows
  apart : Apart X ours mine
  apart' : Apart X' ours mine
  inside : ∀ u, ours u → X'.row u = X.row u

/-- Two recommenders give our users the same scores, and both give items of the other part nothing. -/
def NoInterference (r r' : Score.Recommender ℝ) (ours mine : Nat → Prop) : Prop :=
  ∀ u, u < r.X.nrows → ours u → ∃ (cols : Nat) (row row' : Nat → ℝ), r.getScore [(u : Int)] = .ok ⟨cols, [row]⟩ ∧
    r'.getScore [(u : Int)] = .ok ⟨cols, [row']⟩ ∧ ∀ j, j < cols → row' j = row j ∧ (¬ mine j → row j = 0)

/-- The same for dense data. -/
structure SameInsideDense {U F : Nat} (X X' : Matrix (Fin U) (Fin F) ℝ) (ours : Fin U → Prop) (mine : Fin F → Prop) :
    Prop where
  apart : ∀ u i, X u i ≠ 0 → (ours u ↔ mine i)
  apart' : ∀ u i, X' u i ≠ 0 → (ours u ↔ mine i)
  inside : ∀ u i, ours u → X' u i = X u i

end Irspack.Spec.Separate
