import Verif.Model.Score
import Mathlib.Data.Real.Basic

/-!
# What one user can change for the others
-/

namespace Irspack.Spec.Influence

/-- Two data sets of the same shape that differ only in the history of user `v`. -/
structure DifferAt (X X' : CSR ℝ) (v : Nat) : Prop where
  cols : X'.cols = X.cols
  nrows : X'.nrows = X.nrows
  others : ∀ u, u ≠ v → X'.row u = X.row u

/-- User `v` has nothing stored for item `i`. -/
def Unused (X : CSR ℝ) (v i : Nat) : Prop := ∀ e ∈ X.row v, e.1 ≠ i

/-- Users `u` and `v` have no item in common. -/
def Strangers (X : CSR ℝ) (u v : Nat) : Prop := ∀ e ∈ X.row u, Unused X v e.1

/-- Two recommenders give user `u` the same score for the items `seen`. -/
def SameScores (r r' : Score.Recommender ℝ) (u : Nat) (seen : Nat → Prop) : Prop :=
  ∃ (cols : Nat) (row row' : Nat → ℝ), r.getScore [(u : Int)] = .ok ⟨cols, [row]⟩ ∧
    r'.getScore [(u : Int)] = .ok ⟨cols, [row']⟩ ∧ ∀ j, j < cols → seen j → row' j = row j

end Irspack.Spec.Influence
