import Verif.Model.Sparse
import Verif.Spec.Ials
import Mathlib.Data.Matrix.Basic
import Mathlib.Data.Fin.Tuple.Basic

/-!
# The same interactions with more users or items that took no part

Only the matrix types are used.
-/

namespace Irspack.Spec.Silent

/-- `n` more users at the end, without interactions -/
def withUsers {R : Type} (n : Nat) (X : CSR R) : CSR R := ⟨X.cols, X.rows ++ List.replicate n []⟩

/-- `n` more items at the end, which nobody used -/
def withItems {R : Type} (n : Nat) (X : CSR R) : CSR R := ⟨X.cols + n, X.rows⟩

/-- a square matrix of similarities with `n` more rows and columns at the end, all empty -/
def bordered {R : Type} (n : Nat) (W : CSR R) : CSR R := ⟨W.cols + n, W.rows ++ List.replicate n []⟩

/-- the same for a column-major matrix -/
def borderedCSC {R : Type} (n : Nat) (W : CSC R) : CSC R := ⟨W.rows + n, W.cols ++ List.replicate n []⟩

/-- `n` more users at the end of a column-major matrix -/
def withUsersCSC {R : Type} (n : Nat) (X : CSC R) : CSC R := ⟨X.rows + n, X.cols⟩

/-- `n` more users at the end of a dense matrix -/
def withUsersDense {R : Type} [Zero R] {U F : Nat} (n : Nat) (X : Matrix (Fin U) (Fin F) R) :
    Matrix (Fin (U + n)) (Fin F) R := fun u i => Fin.append (fun u => X u i) (fun _ => 0) u

/-- an interaction data set with `n` more users, for whom nothing was observed -/
def withUsersData (n : Nat) (D : Ials.Data) : Ials.Data := ⟨D.U + n, D.I, fun u i => u < D.U ∧ D.S u i, D.X⟩

end Irspack.Spec.Silent
