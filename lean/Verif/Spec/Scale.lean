import Verif.Model.Sparse
import Verif.Model.Similarity
import Verif.Spec.Ials

/-!
# The same interactions measured in another unit

Only the matrix types are used, and the names of the weighting schemes.
-/

namespace Irspack.Spec.Scale

/-- every stored value multiplied by `c` -/
def scaledVec {R : Type} [Mul R] (c : R) (v : SpVec R) : SpVec R := v.map (fun e => (e.1, c * e.2))

/-- a row-major matrix with every stored value multiplied by `c` -/
def scaled {R : Type} [Mul R] (c : R) (X : CSR R) : CSR R := ⟨X.cols, X.rows.map (scaledVec c)⟩

/-- a column-major matrix with every stored value multiplied by `c` -/
def scaledCSC {R : Type} [Mul R] (c : R) (X : CSC R) : CSC R := ⟨X.rows, X.cols.map (scaledVec c)⟩

/-- the weighting with its parameters expressed in the new unit: the saturation constant `k1` of BM25 is
an amount of interaction, the others are pure numbers -/
noncomputable def weightingIn (c : ℝ) : Sim.Weighting → Sim.Weighting
  | .none => .none
  | .tfIdf => .tfIdf
  | .bm25 k1 b => .bm25 (c * k1) b

/-- what a weighted value is multiplied by when the unit changes: TF-IDF is linear, BM25 saturates at
`k1 + 1` -/
noncomputable def weightedBy (c : ℝ) : Sim.Weighting → ℝ
  | .none => c
  | .tfIdf => c
  | .bm25 k1 _ => (c * k1 + 1) / (k1 + 1)

/-- no stored value is negative -/
def NonNegative (X : CSR ℝ) : Prop := ∀ row ∈ X.rows, ∀ e ∈ row, 0 ≤ e.2

/-- an interaction data set in another unit -/
noncomputable def scaledData (c : ℝ) (D : Ials.Data) : Ials.Data := ⟨D.U, D.I, D.S, fun u i => c * D.X u i⟩

end Irspack.Spec.Scale
