import Mathlib.Algebra.BigOperators.Group.Finset.Basic
import Verif.Model.Sparse

/-! # Specification of the score functions -/

namespace Spec.Score

open Irspack

/-- The index `i` denotes position `u` of an axis of length `n`: `u` itself, or counted from the end. -/
def Names (n : Nat) (i : Int) (u : Nat) : Prop := u < n ∧ (i = u ∨ i = (u : Int) - n)

/-- The index array denotes these positions, one by one. -/
def NamesAll (n : Nat) (idx : List Int) (us : List Nat) : Prop := List.Forall₂ (Names n) idx us

/-- User `u` of the matrix has interacted with item `j`: a non-zero value is stored there. -/
def Seen {R : Type} [Zero R] (X : CSR R) (u j : Nat) : Prop := ∃ v, (j, v) ∈ X.row u ∧ v ≠ 0

/-- The score of an item-based model: interactions of user `u` times the weights towards item `j`. -/
def itemBased {R : Type} [Semiring R] (X : CSR R) (W : Nat → Nat → R) (u j : Nat) : R :=
  ∑ i ∈ Finset.range X.cols, X.get u i * W i j

/-- The score of a user-based model: similarities of user `u` times the interactions with item `j`. -/
def userBased {R : Type} [Semiring R] (U X : CSR R) (u j : Nat) : R :=
  ∑ v ∈ Finset.range U.cols, U.get u v * X.get v j

end Spec.Score
