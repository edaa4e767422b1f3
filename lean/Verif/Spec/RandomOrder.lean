import Mathlib.Data.Fintype.Perm
import Mathlib.Data.Real.Basic
import Mathlib.Order.WithBot
import Mathlib.Algebra.BigOperators.Group.Finset.Basic

/-!
# Random orders of the items
-/

namespace Irspack.Spec

/-- scores that rank item `i` at place `place i`; every item has a score -/
def placeScore {n : Nat} (place : Equiv.Perm (Fin n)) (i : Nat) : WithBot Nat :=
  if h : i < n then ((n - (place ⟨i, h⟩).1 : Nat) : WithBot Nat) else ⊥

/-- the expected value when all orders of `n` items are equally likely -/
noncomputable def expected {n : Nat} (x : Equiv.Perm (Fin n) → ℝ) : ℝ := (∑ σ, x σ) / n.factorial

end Irspack.Spec
