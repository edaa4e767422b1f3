import Mathlib.Algebra.BigOperators.Group.List.Basic
import Mathlib.Algebra.Ring.Defs
import Verif.Model.Basic
import Verif.Model.WorkQueue

/-!
# Sparse matrices and the threaded product

`Eigen::SparseMatrix<Real, RowMajor>` / `scipy.sparse.csr_matrix`: for each row the list of stored
(column, value) pairs.  Stored zeros and (scipy only) repeated columns are representable.
-/

namespace Irspack

/-- The stored entries of one row (CSR) or column (CSC): `InnerIterator` order. -/
abbrev SpVec (R : Type) := List (Nat × R)

/-- Numeric value at index `j`: repeated entries add up (scipy semantics of duplicates; Eigen's
`setFromTriplets`). -/
def SpVec.get {R : Type} [AddMonoid R] (v : SpVec R) (j : Nat) : R :=
  ((v.filter (fun e => e.1 == j)).map Prod.snd).sum

/-- Row-major sparse matrix: `rows()` is `rows.length`, `cols()` is `cols`.
(/repo/cpp_source/util.hpp:21-22) -/
structure CSR (R : Type) where
  cols : Nat
  rows : List (SpVec R)

namespace CSR
variable {R : Type}

/-- number of rows (`X.rows()`, `X.shape[0]`) -/
def nrows (X : CSR R) : Nat := X.rows.length

/-- stored entries of row `i` (`InnerIterator it(X, i)`); empty beyond the last row -/
def row (X : CSR R) (i : Nat) : SpVec R := X.rows.getD i []

/-- the numeric entry -/
def get [AddMonoid R] (X : CSR R) (i j : Nat) : R := (X.row i).get j

/-- all column indices are inside the matrix -/
def WF (X : CSR R) : Prop := ∀ row ∈ X.rows, ∀ e ∈ row, e.1 < X.cols

end CSR

/-- Column-major sparse matrix (/repo/cpp_source/util.hpp:38-39). -/
structure CSC (R : Type) where
  rows : Nat
  cols : List (SpVec R)

namespace CSC
variable {R : Type}

/-- the numeric entry -/
def get [AddMonoid R] (X : CSC R) (i j : Nat) : R := SpVec.get (X.cols.getD j []) i

end CSC

/-- A parallel region that has been rejected, or the state its workers reached. -/
abbrev Region (T : Nat) (L M : Type) := Except Err (WorkQueue.State T L M)

section product
variable {R : Type} [Semiring R]

/-- One row of `left.middleRows(...) * right` (Eigen sparse product):
`Σ_k left(r,k) * right(k,j)` over the stored entries of the left row.
/repo/cpp_source/util.hpp:61-62. -/
def mulRow (row : SpVec R) (B : CSC R) (j : Nat) : R :=
  (row.map (fun e => e.2 * B.get e.1 j)).sum

/-- The body of the work loop: `result.middleRows(r,1) += left.middleRows(r,1) * right`.
The shared result is a function of (row, column). /repo/cpp_source/util.hpp:61-62. -/
def productWrite (A : CSR R) (B : CSC R) (r : Nat) (m : Nat → Nat → R) : Nat → Nat → R :=
  fun i j => if i = r then m i j + mulRow (A.row r) B j else m i j

/-- `parallel_sparse_product` (/repo/cpp_source/util.hpp:41-70, exported as `sparse_mm_threaded`):
zeroed result, `n_threads > 0` check, workers with chunk size 16.  `sched` is the interleaving. -/
def parallelSparseProduct (A : CSR R) (B : CSC R) (nThreads : Nat) (sched : List (Fin nThreads)) :
    Region nThreads Unit (Nat → Nat → R) :=
  if nThreads = 0 then .error .invalidArgument
  else .ok (WorkQueue.run A.nrows 16 (fun r l m => (l, productWrite A B r m))
    (WorkQueue.init () (fun _ _ => 0)) sched)

end product

end Irspack
