import Mathlib.Algebra.BigOperators.Group.Finset.Basic
import Mathlib.Analysis.SpecialFunctions.Pow.Real
import Mathlib.Analysis.SpecialFunctions.Log.Basic
import Mathlib.Analysis.SpecialFunctions.Sqrt
import Verif.Model.Sparse

/-!
# What weighting and similarities should be

Only the sparse matrix types of the model are used.  A row or column of a matrix appears as the
function from indices to values.
-/

namespace Irspack.Spec.Sim

/-- Indices in range, none stored twice. -/
def Proper (X : CSR ℝ) : Prop :=
  (∀ row ∈ X.rows, ∀ e ∈ row, e.1 < X.cols) ∧ ∀ row ∈ X.rows, (row.map Prod.fst).Nodup

/-- No stored value is zero. -/
def NoStoredZero (X : CSR ℝ) : Prop := ∀ row ∈ X.rows, ∀ e ∈ row, e.2 ≠ 0

/-- Every stored value is positive. -/
def Positive (X : CSR ℝ) : Prop := ∀ row ∈ X.rows, ∀ e ∈ row, 0 < e.2

/-- Number of rows in which column `j` is nonzero: the document frequency. -/
noncomputable def frequency (X : CSR ℝ) (j : Nat) : Nat :=
  ((Finset.range X.nrows).filter (fun r => X.get r j ≠ 0)).card

/-- Sum of row `r`: the document length. -/
noncomputable def length (X : CSR ℝ) (r : Nat) : ℝ := ∑ j ∈ Finset.range X.cols, X.get r j

/-- Inner product over the indices below `n`. -/
noncomputable def dot (n : Nat) (v w : Nat → ℝ) : ℝ := ∑ u ∈ Finset.range n, v u * w u

/-- Euclidean norm. -/
noncomputable def l2norm (n : Nat) (v : Nat → ℝ) : ℝ := Real.sqrt (dot n v v)

/-- The set of indices with a nonzero value. -/
noncomputable def support (n : Nat) (v : Nat → ℝ) : Finset Nat := (Finset.range n).filter (fun u => v u ≠ 0)

/-- The constant added to every denominator. -/
noncomputable def eps : ℝ := 1e-6

/-- Cosine similarity (documentation of `CosineKNNRecommender`, plus `eps`). -/
noncomputable def cosine (n : Nat) (s : ℝ) (v w : Nat → ℝ) : ℝ := dot n v w / (l2norm n v * l2norm n w + s + eps)

/-- Asymmetric cosine similarity (documentation of `AsymmetricCosineKNNRecommender`, plus `eps`). -/
noncomputable def asymmetric (n : Nat) (alpha s : ℝ) (v w : Nat → ℝ) : ℝ :=
  dot n v w / (l2norm n v ^ (2 * alpha) * l2norm n w ^ (2 * (1 - alpha)) + s + eps)

/-- Jaccard index (documentation of `JaccardKNNRecommender`, plus `eps`). -/
noncomputable def jaccard (n : Nat) (s : ℝ) (v w : Nat → ℝ) : ℝ :=
  ((support n v ∩ support n w).card : ℝ) / ((support n v ∪ support n w).card + s + eps)

/-- Tversky index (documentation of `TverskyIndexKNNRecommender`, plus `eps`). -/
noncomputable def tversky (n : Nat) (alpha beta s : ℝ) (v w : Nat → ℝ) : ℝ :=
  ((support n v ∩ support n w).card : ℝ) /
    ((support n v ∩ support n w).card + alpha * (support n v \ support n w).card +
      beta * (support n w \ support n v).card + s + eps)

/-- Entry `e` is preferred to `f`: larger value, or equal values and smaller column. -/
def better (e f : Nat × ℝ) : Prop := f.2 < e.2 ∨ (e.2 = f.2 ∧ e.1 < f.1)

open Classical in
/-- The `k` best entries of a row, in the order of the row: those with fewer than `k` better ones. -/
noncomputable def bestOf (k : Nat) (row : SpVec ℝ) : SpVec ℝ :=
  row.filter (fun e => decide (row.countP (fun f => decide (better f e)) < k))

/-- `x ^ alpha`, absent entries staying absent. -/
noncomputable def pw (alpha x : ℝ) : ℝ := if x = 0 then 0 else x ^ alpha

/-- Probability of stepping from item `i` to user `u` in the user-item matrix `X`. -/
noncomputable def toUser (alpha : ℝ) (X : CSR ℝ) (i u : Nat) : ℝ :=
  pw alpha (X.get u i) / ∑ v ∈ Finset.range X.nrows, pw alpha (X.get v i)

/-- Probability of stepping from user `u` to item `i`. -/
noncomputable def toItem (alpha : ℝ) (X : CSR ℝ) (u i : Nat) : ℝ :=
  pw alpha (X.get u i) / ∑ j ∈ Finset.range X.cols, pw alpha (X.get u j)

/-- Total of the interactions of item `i`. -/
noncomputable def popularity (X : CSR ℝ) (i : Nat) : ℝ := ∑ u ∈ Finset.range X.nrows, X.get u i

end Irspack.Spec.Sim
