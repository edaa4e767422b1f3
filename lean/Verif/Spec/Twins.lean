import Verif.Model.Score
import Mathlib.Data.Real.Basic

/-!
# Users and items that the data do not tell apart
-/

namespace Irspack.Spec.Twins

/-- Users `u` and `v` have interacted with the same items, and as much. -/
def SameHistory (X : CSR ℝ) (u v : Nat) : Prop := ∀ i, i < X.cols → X.get u i = X.get v i

/-- The same users have interacted with items `i` and `j`, and as much. -/
def SameAudience (X : CSR ℝ) (i j : Nat) : Prop := ∀ u, u < X.nrows → X.get u i = X.get u j

/-- Users `u` and `v` get the same scores for all items. -/
def UsersScoredAlike (r : Score.Recommender ℝ) (u v : Nat) : Prop :=
  ∃ (cols : Nat) (row row' : Nat → ℝ), r.getScore [(u : Int)] = .ok ⟨cols, [row]⟩ ∧
    r.getScore [(v : Int)] = .ok ⟨cols, [row']⟩ ∧ ∀ j, j < cols → row j = row' j

/-- Every user of the training data gets the same score for items `i` and `j`. -/
def ItemsScoredAlike (r : Score.Recommender ℝ) (i j : Nat) : Prop :=
  ∀ u, u < r.X.nrows → ∃ (cols : Nat) (row : Nat → ℝ), r.getScore [(u : Int)] = .ok ⟨cols, [row]⟩ ∧
    i < cols ∧ j < cols ∧ row i = row j

end Irspack.Spec.Twins
