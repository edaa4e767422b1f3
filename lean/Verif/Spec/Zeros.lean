import Verif.Model.Sparse

/-!
# Interactions stored with the value zero

A sparse matrix can store an entry whose value is zero, for instance when a log with ratings contains a rating of zero.
`withoutZeros` is scipy's `eliminate_zeros`.  Only the matrix types are used.
-/

namespace Irspack.Spec.Zeros

variable {R : Type} [Zero R] [DecidableEq R]

/-- the stored entries that are not zero -/
def kept (v : SpVec R) : SpVec R := v.filter (fun e => decide (e.2 ≠ 0))

/-- the matrix with the zeros no longer stored -/
def withoutZeros (X : CSR R) : CSR R := ⟨X.cols, X.rows.map kept⟩

/-- the same for a column-major matrix -/
def withoutZerosCSC (X : CSC R) : CSC R := ⟨X.rows, X.cols.map kept⟩

/-- a row in which something is stored has a value that is not zero -/
def NoRowOfZeros (X : CSR R) : Prop := ∀ row ∈ X.rows, row ≠ [] → ∃ e ∈ row, e.2 ≠ 0

/-- a column in which something is stored has a value that is not zero -/
def NoColumnOfZeros (X : CSR R) : Prop :=
  ∀ row ∈ X.rows, ∀ e ∈ row, ∃ row' ∈ X.rows, ∃ e' ∈ row', e'.1 = e.1 ∧ e'.2 ≠ 0

end Irspack.Spec.Zeros
