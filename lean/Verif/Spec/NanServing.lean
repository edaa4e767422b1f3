import Verif.Model.Similarity

/-!
# Items that share a user
-/

namespace Irspack.Spec
open Irspack

/-- User `u` has an interaction with item `i`. -/
def Has (X : CSR ℝ) (u i : Nat) : Prop := ∃ x, (i, x) ∈ X.row u

/-- Some user has interactions with both items. -/
def Together (X : CSR ℝ) (i j : Nat) : Prop := ∃ u, Has X u i ∧ Has X u j

end Irspack.Spec
