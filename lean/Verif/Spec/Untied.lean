import Mathlib.Data.Real.Basic
import Mathlib.Data.Finset.Card
import Verif.Spec.Similarity

/-!
# The nearest neighbours, when there are no ties

`sim j` is the similarity to thing `j`, one of `n`.
-/

namespace Irspack.Spec

/-- Similarities are at least 0, and two things are never equally similar unless they are not similar at all. -/
def Untied (n : Nat) (sim : Nat → ℝ) : Prop :=
  (∀ j, j < n → 0 ≤ sim j) ∧ ∀ i j, i < n → j < n → sim i = sim j → sim i ≠ 0 → i = j

open Classical in
/-- The similarity to thing `j` if fewer than `k` things are more similar, otherwise 0. -/
noncomputable def nearest (k n : Nat) (sim : Nat → ℝ) (j : Nat) : ℝ :=
  if ((Finset.range n).filter (fun i => sim j < sim i)).card < k then sim j else 0

open Spec.Sim in
/-- The probability of the walk from item `j` to item `i`, divided by a power of the popularity of `i`
(`be = 0` for P3alpha). -/
noncomputable def walkTo (a be : ℝ) (X : CSR ℝ) (i j : Nat) : ℝ :=
  (∑ u ∈ Finset.range X.nrows, toUser a X j u * toItem a X u i) / popularity X i ^ be

end Irspack.Spec
