import Mathlib.LinearAlgebra.Matrix.NonsingularInverse
import Verif.Model.Basic

/-!
# DenseSLIM and EDLAE (`recommenders/dense_slim.py:38-53`, `recommenders/edlae.py:52-69`)

Simplifications: exact arithmetic of a field instead of `float32`; `scipy.linalg.inv` is the matrix
inverse, and raises (`LinAlgError`, a `ValueError`) exactly for singular matrices.
-/

namespace Irspack.Ease

variable {K : Type} [Field K] {U F : Nat}

/-- `P = X.T.dot(X)` (dense_slim.py:39-41, edlae.py:55-57) -/
def gram (X : Matrix (Fin U) (Fin F) K) : Matrix (Fin F) (Fin F) K := X.transpose * X

open Classical in
/-- The shared tail: add `lamb` to the diagonal, invert, multiply column `j` by `-1 / P⁻¹_jj`, clear
the diagonal (dense_slim.py:42-53, edlae.py:61-69).  `numpy` goes on with infinities where `P⁻¹_jj` is zero; the
model stops there with `nonFinite`. -/
noncomputable def solve (P : Matrix (Fin F) (Fin F) K) (lamb : Fin F → K) :
    Except Err (Matrix (Fin F) (Fin F) K) :=
  let A := P + Matrix.diagonal lamb
  if IsUnit A.det then
    if ∃ j, A⁻¹ j j = 0 then .error .nonFinite else
    .ok (fun i j => if i = j then 0 else A⁻¹ i j * -(1 / A⁻¹ j j))
  else .error .valueError

/-- `DenseSLIMRecommender._learn` (dense_slim.py:38-53). -/
noncomputable def denseSlim (X : Matrix (Fin U) (Fin F) K) (reg : K) :
    Except Err (Matrix (Fin F) (Fin F) K) :=
  solve (gram X) (fun _ => reg)

open Classical in
/-- `EDLAERecommender._learn` (edlae.py:52-69): `lamb = p / q * diag(P) + reg` with `q = 1 - p`; a
Python float division by `q = 0` raises. -/
noncomputable def edlae (X : Matrix (Fin U) (Fin F) K) (reg p : K) :
    Except Err (Matrix (Fin F) (Fin F) K) :=
  let q := 1 - p
  if q = 0 then .error .zeroDivisionError
  else solve (gram X) (fun i => p / q * gram X i i + reg)

end Irspack.Ease
