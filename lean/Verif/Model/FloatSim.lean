import Verif.Model.Similarity
import Verif.Model.Score

/-!
# Neighbourhood similarities in floating-point arithmetic (`/repo/cpp_source/knn`)

`Model/Similarity.lean` computes in exact reals.  Here every operation on `Real = double`
(/repo/cpp_source/knn/wrapper.cpp:8) is followed by a rounding, and the order in which Eigen and scipy add
up the terms of a sum is a parameter.  Modelled: the similarity computers, P3alpha and RP3beta, the
nearest-neighbour recommenders without feature weighting, the scores of a sparse similarity matrix and
`TopPopRecommender`.  Overflow, underflow and NaN are not modelled.
-/

namespace Irspack.Sim.Float

open Irspack

/-- The arithmetic of `double` and the routines of Eigen and of the C++ library that are used. -/
structure Machine where
  /-- rounding of the exact result of `+`, `-`, `*` or `/`, or of a decimal literal -/
  fl : ℝ → ℝ
  /-- `std::sqrt`, in `norm()` (similarities.hpp:26, 39) -/
  sqrt : ℝ → ℝ
  /-- `std::pow` (similarities.hpp:71, 80, 216, 235, 287, 311, 318) -/
  pow : ℝ → ℝ → ℝ
  /-- the sum of the given terms: entries of a sparse product (terms are products), `sum()`,
  `squaredNorm()` (terms are squares), accumulation in a variable that starts at 0 -/
  total : List ℝ → ℝ

variable (M : Machine)

/-- the stored entries of `t` whose index is stored in `x` too -/
def common (t x : SpVec ℝ) : SpVec ℝ := t.filter (fun e => x.any (fun f => decide (f.1 = e.1)))

/-- One row of `target * X_t` (similarities.hpp:33, 76, 122, 172, 250, 334). -/
def productRow (t : SpVec ℝ) (X : CSR ℝ) : SpVec ℝ :=
  (List.range X.nrows).filterMap (fun j =>
    if t.any (fun e => (X.row j).any (fun f => decide (f.1 = e.1))) then
      some (j, M.total ((common t (X.row j)).map (fun e => e.2 * (X.row j).get e.1)))
    else none)

/-- `squaredNorm()` of a stored row. -/
def sqNorm (v : SpVec ℝ) : ℝ := M.total (v.map (fun e => e.2 ^ 2))

/-- `sum()` of a stored row. -/
def rowTotal (v : SpVec ℝ) : ℝ := M.total (v.map Prod.snd)

/-- One row of `compute_similarity_imple` (similarities.hpp: Cosine 29-46, AsymmetricCosine 72-87, Jaccard
108-130, Tversky 158-184, P3alpha 246-254, RP3beta 330-338), including what the constructors do to `X_t`
and `norms` (23-27, 62-70, 99-106, 149-156).  The operations are those of the expressions, from left to
right. -/
noncomputable def simRow (kind : Kind) (shrinkage : ℝ) (X : CSR ℝ) (t : SpVec ℝ) : SpVec ℝ :=
  match kind with
  | .raw => productRow M t X
  | .cosine false => productRow M t X
  | .cosine true =>
    (productRow M t X).map (fun e =>
      (e.1, M.fl (e.2 / M.fl (M.fl (M.fl (M.sqrt (sqNorm M (X.row e.1)) * M.sqrt (sqNorm M t)) + shrinkage) + M.fl 1e-6))))
  | .asymmetric alpha =>
    (productRow M t X).map (fun e =>
      (e.1, M.fl (e.2 / M.fl (M.fl (M.fl (M.pow (sqNorm M (X.row e.1)) (M.fl (1 - alpha)) * M.pow (sqNorm M t) alpha) +
        shrinkage) + M.fl 1e-6))))
  | .jaccard =>
    let Xb : CSR ℝ := ⟨X.cols, X.rows.map binarize⟩
    (productRow M (binarize t) Xb).map (fun e =>
      (e.1, M.fl (e.2 / M.fl (M.fl (M.fl (M.fl (rowTotal M (Xb.row e.1) + rowTotal M (binarize t)) - e.2) + shrinkage) +
        M.fl 1e-6))))
  | .tversky alpha beta =>
    let Xb : CSR ℝ := ⟨X.cols, X.rows.map binarize⟩
    (productRow M (binarize t) Xb).map (fun e =>
      (e.1, M.fl (e.2 / M.fl (M.fl (M.fl (M.fl (e.2 + M.fl (beta * M.fl (rowTotal M (Xb.row e.1) - e.2))) +
        M.fl (alpha * M.fl (rowTotal M (binarize t) - e.2))) + shrinkage) + M.fl 1e-6))))

open Classical in
/-- A computer's constructor followed by `compute_similarity` (knn.hpp:30-80). -/
noncomputable def computeSimilarity (nth : Nat → SpVec ℝ → List Nat) (kind : Kind) (shrinkage : ℝ)
    (X target : CSR ℝ) (nThreads maxChunk topK : Nat) : Except Err (CSR ℝ) :=
  if shrinkage < 0 ∨ nThreads < 1 ∨ maxChunk < 1 ∨ ¬ kind.paramsOk then .error .invalidArgument
  else if target.cols ≠ X.cols then .error .invalidArgument
  else .ok (similarityRows nth (simRow M kind shrinkage X) X.nrows target nThreads maxChunk topK)

/-! ## P3alpha, RP3beta -/

/-- The columns of `X_t` in the constructors of P3alpha and RP3beta (similarities.hpp:214-228, 283-297). -/
noncomputable def itemToUser (alpha : ℝ) (X : CSR ℝ) : CSR ℝ :=
  ⟨X.cols, X.rows.map (fun row =>
    row.map (fun e => (e.1, M.fl (M.pow e.2 alpha / M.total (row.map (fun e => M.pow e.2 alpha))))))⟩

/-- `norm_temp(u)` of `compute_W` (similarities.hpp:233-242, 313-322). -/
noncomputable def userNorm (alpha : ℝ) (X : CSR ℝ) (u : Nat) : ℝ :=
  M.total (X.rows.flatMap (fun row => (row.filter (fun e => decide (e.1 = u))).map (fun e => M.pow e.2 alpha)))

open Classical in
/-- `P3alphaComputer(X, alpha, ...).compute_W(X, top_k)` (similarities.hpp:188-255). -/
noncomputable def p3W (nth : Nat → SpVec ℝ → List Nat) (alpha : ℝ) (X : CSR ℝ)
    (nThreads maxChunk topK : Nat) : Except Err (CSC ℝ) :=
  if alpha < 0 then .error .invalidArgument
  else
    let target : CSR ℝ := ⟨X.cols, X.rows.map (fun row =>
      row.map (fun e => (e.1, M.fl (M.pow e.2 alpha / userNorm M alpha X e.1))))⟩
    match computeSimilarity M nth .raw 0 (itemToUser M alpha X) target nThreads maxChunk topK with
    | .error e => .error e
    | .ok R => .ok ⟨R.cols, R.rows⟩

open Classical in
/-- `RP3betaComputer(X, alpha, beta, ...).compute_W(X, top_k)` (similarities.hpp:258-339). -/
noncomputable def rp3W (nth : Nat → SpVec ℝ → List Nat) (alpha beta : ℝ) (X : CSR ℝ)
    (nThreads maxChunk topK : Nat) : Except Err (CSC ℝ) :=
  if alpha < 0 ∨ beta < 0 then .error .invalidArgument
  else
    let target : CSR ℝ := ⟨X.cols, X.rows.map (fun row =>
      row.map (fun e => (e.1, M.fl (M.pow e.2 alpha /
        M.fl (userNorm M alpha X e.1 * M.pow (rowTotal M row) beta)))))⟩
    match computeSimilarity M nth .raw 0 (itemToUser M alpha X) target nThreads maxChunk topK with
    | .error e => .error e
    | .ok R => .ok ⟨R.cols, R.rows⟩

/-! ## The recommenders -/

/-- `BaseKNNRecommender._learn` (knn.py:67-80) without feature weighting. -/
noncomputable def itemKnnW (nth : Nat → SpVec ℝ → List Nat) (kind : Kind) (shrinkage : ℝ)
    (X : CSR ℝ) (nThreads topK : Nat) : Except Err (CSR ℝ) :=
  match computeSimilarity M nth kind shrinkage (transpose X) (transpose X) nThreads 128 topK with
  | .error e => .error e
  | .ok S => removeDiagonal S

/-- `BaseUserKNNRecommender._learn` (user_knn.py:61-74) without feature weighting. -/
noncomputable def userKnnU (nth : Nat → SpVec ℝ → List Nat) (kind : Kind) (shrinkage : ℝ)
    (X : CSR ℝ) (nThreads topK : Nat) : Except Err (CSR ℝ) :=
  match computeSimilarity M nth kind shrinkage X X nThreads 128 topK with
  | .error e => .error e
  | .ok S => removeDiagonal S

/-- `P3alphaRecommender._learn` (p3.py:67-76) with `normalize_weight=False`. -/
noncomputable def p3Learn (nth : Nat → SpVec ℝ → List Nat) (alpha : ℝ) (X : CSR ℝ) (topK : Option Nat)
    (nThreads : Nat) : Except Err (CSC ℝ) :=
  p3W M nth alpha (transpose X) nThreads 128 (topK.getD X.cols)

/-- `RP3betaRecommender._learn` (rp3.py:74-84) with `normalize_weight=False`. -/
noncomputable def rp3Learn (nth : Nat → SpVec ℝ → List Nat) (alpha beta : ℝ) (X : CSR ℝ) (topK : Option Nat)
    (nThreads : Nat) : Except Err (CSC ℝ) :=
  rp3W M nth alpha beta (transpose X) nThreads 128 (topK.getD X.cols)

/-- One entry of the product of the sparse row `row` and a sparse matrix, of whose column `stored` says
which rows are stored and `w` is the content: scipy adds up the products of entries stored in both. -/
def sparseDot (row : SpVec ℝ) (stored : Nat → Bool) (w : Nat → ℝ) : ℝ :=
  M.total ((row.filter (fun e => stored e.1)).map (fun e => e.2 * w e.1))

/-- `get_score` of an item similarity recommender (base.py:422-423): `self.X_train_all[user_indices].dot(self.W)`. -/
def itemScore (X W : CSR ℝ) (u j : Nat) : ℝ :=
  sparseDot M (X.row u) (fun i => (W.row i).any (fun f => decide (f.1 = j))) (fun i => W.get i j)

/-- The same for the column-major `W` of P3alpha and RP3beta. -/
def walkScore (X : CSR ℝ) (W : CSC ℝ) (u j : Nat) : ℝ :=
  sparseDot M (X.row u) (fun i => (W.cols.getD j []).any (fun f => decide (f.1 = i))) (fun i => W.get i j)

/-- `get_score` of a user similarity recommender (base.py:449-450): `self.U[user_indices].dot(self._X_csc)`. -/
def userScore (X U : CSR ℝ) (u j : Nat) : ℝ :=
  sparseDot M (U.row u) (fun v => (X.row v).any (fun f => decide (f.1 = j))) (fun v => X.get v j)

/-- `_learn` of `TopPopRecommender` (toppop.py:33-34): the column sums of the stored entries. -/
def popularity (X : CSR ℝ) (j : Nat) : ℝ :=
  M.total (X.rows.flatMap (fun row => (row.filter (fun e => decide (e.1 = j))).map Prod.snd))

end Irspack.Sim.Float
