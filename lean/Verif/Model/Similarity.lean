import Mathlib.Analysis.SpecialFunctions.Pow.Real
import Mathlib.Analysis.SpecialFunctions.Log.Basic
import Mathlib.Analysis.SpecialFunctions.Sqrt
import Verif.Model.Sparse
import Verif.Model.Split

/-!
# Weighting and neighbourhood similarities

* `remove_diagonal`, `okapi_BM_25_weight`, `tf_idf_weight` (/repo/cpp_source/util.hpp:158-226)
* `l1_normalize_row` (/repo/src/irspack/utils/__init__.py:20-25)
* `KNNComputer` and the similarity computers (/repo/cpp_source/knn/knn.hpp, similarities.hpp)
* `_learn` of the KNN, P3alpha and RP3beta recommenders (/repo/src/irspack/recommenders/knn.py:67-80,
  p3.py:67-76, rp3.py:74-84)

Values are exact real numbers (the code uses `double`).
-/

namespace Irspack.Sim

/-! ## util.hpp -/

/-- The inner loop of `remove_diagonal` for row `i` (util.hpp:219-223). -/
def zeroAt (i : Nat) (row : SpVec ℝ) : SpVec ℝ := row.map (fun e => if i = e.1 then (e.1, 0) else e)

/-- `remove_diagonal` (util.hpp:211-226). -/
def removeDiagonal (X : CSR ℝ) : Except Err (CSR ℝ) :=
  if X.nrows ≠ X.cols then .error .invalidArgument
  else .ok ⟨X.cols, X.rows.mapIdx zeroAt⟩

/-- The count `idf(j)` before the logarithm: the number of stored entries of column `j`
(util.hpp:169-174, 197-201). -/
def docFreq (X : CSR ℝ) (j : Nat) : Nat := (X.rows.map (fun row => row.countP (fun e => decide (e.1 = j)))).sum

/-- `doc_length(i)` (util.hpp:172). -/
def docLength (row : SpVec ℝ) : ℝ := (row.map Prod.snd).sum

/-- `avgdl` (util.hpp:175). -/
noncomputable def avgdl (X : CSR ℝ) : ℝ := (X.rows.map docLength).sum / X.nrows

/-- `okapi_BM_25_weight` (util.hpp:158-186). -/
noncomputable def bm25 (X : CSR ℝ) (k1 b : ℝ) : CSR ℝ :=
  ⟨X.cols, X.rows.map (fun row =>
    let regularizer := k1 * (1 - b + b * docLength row / avgdl X)
    row.map (fun e => (e.1, Real.log (X.nrows / ((docFreq X e.1 : ℝ) + 1) + 1) * (e.2 * (k1 + 1)) /
      (e.2 + regularizer))))⟩

/-- `tf_idf_weight` (util.hpp:188-209). -/
noncomputable def tfIdf (X : CSR ℝ) (smooth : Bool) : CSR ℝ :=
  ⟨X.cols, X.rows.map (fun row => row.map (fun e =>
    (e.1, e.2 * Real.log (X.nrows / ((docFreq X e.1 : ℝ) + if smooth then 1 else 0)))))⟩

/-! ## l1_normalize_row -/

/-- `X.sum(axis=1)` of a CSC matrix. -/
def rowSum (X : CSC ℝ) (i : Nat) : ℝ := (X.cols.map (fun col => SpVec.get col i)).sum

/-- `l1_normalize_row` (utils/__init__.py:20-25) on a CSC matrix, whose `indices` are row numbers.
`sort_indices` only reorders a column. -/
noncomputable def l1NormalizeRow (X : CSC ℝ) : CSC ℝ :=
  ⟨X.rows, X.cols.map (fun col =>
    (col.insertionSort (fun a b => a.1 ≤ b.1)).map (fun e => (e.1, e.2 / rowSum X e.1)))⟩

/-! ## KNNComputer -/

/-- One row of `target * X_t` as Eigen stores it: the columns that share a stored index with the target
row, in increasing order; cancelled values stay.  Column `j` of `X_t` is row `j` of `X`. -/
def productRow (t : SpVec ℝ) (X : CSR ℝ) : SpVec ℝ :=
  (List.range X.nrows).filterMap (fun j =>
    if t.any (fun e => (X.row j).any (fun f => decide (f.1 = e.1))) then
      some (j, (t.map (fun e => e.2 * (X.row j).get e.1)).sum)
    else none)

/-- `squaredNorm()` of a stored row. -/
def sqNorm (v : SpVec ℝ) : ℝ := (v.map (fun e => e.2 ^ 2)).sum

/-- All stored values replaced by 1 (similarities.hpp:99-103, 115-120). -/
def binarize (v : SpVec ℝ) : SpVec ℝ := v.map (fun e => (e.1, 1))

/-- `sum()` of a stored row. -/
def rowTotal (v : SpVec ℝ) : ℝ := (v.map Prod.snd).sum

/-- The similarity computers.  `raw` is what the P3alpha and RP3beta computers use. -/
inductive Kind where
  | cosine (normalize : Bool)
  | asymmetric (alpha : ℝ)
  | jaccard
  | tversky (alpha beta : ℝ)
  | raw

/-- One row of `compute_similarity_imple` for the target row `t` (similarities.hpp: Cosine 29-46,
AsymmetricCosine 72-87, Jaccard 108-130, Tversky 158-184, P3alpha 246-254, RP3beta 330-338), including
the transformation of `X_t` and `norms` in the constructors (23-27, 62-70, 99-106, 149-156). -/
noncomputable def simRow (kind : Kind) (shrinkage : ℝ) (X : CSR ℝ) (t : SpVec ℝ) : SpVec ℝ :=
  match kind with
  | .raw => productRow t X
  | .cosine false => productRow t X
  | .cosine true =>
    (productRow t X).map (fun e =>
      (e.1, e.2 / (Real.sqrt (sqNorm (X.row e.1)) * Real.sqrt (sqNorm t) + shrinkage + 1e-6)))
  | .asymmetric alpha =>
    (productRow t X).map (fun e =>
      (e.1, e.2 / ((sqNorm (X.row e.1)) ^ (1 - alpha) * (sqNorm t) ^ alpha + shrinkage + 1e-6)))
  | .jaccard =>
    let Xb : CSR ℝ := ⟨X.cols, X.rows.map binarize⟩
    (productRow (binarize t) Xb).map (fun e =>
      (e.1, e.2 / (rowTotal (Xb.row e.1) + rowTotal (binarize t) - e.2 + shrinkage + 1e-6)))
  | .tversky alpha beta =>
    let Xb : CSR ℝ := ⟨X.cols, X.rows.map binarize⟩
    (productRow (binarize t) Xb).map (fun e =>
      (e.1, e.2 / (e.2 + beta * (rowTotal (Xb.row e.1) - e.2) +
        alpha * (rowTotal (binarize t) - e.2) + shrinkage + 1e-6)))

/-- `compute_sim_block(target, start, end)`: the rows `start ≤ · < end` (knn.hpp:149-153), with what
`compute_similarity_imple` makes of each row. -/
def simBlock (f : SpVec ℝ → SpVec ℝ) (target : CSR ℝ) (start stop : Nat) : List (SpVec ℝ) :=
  (List.range (stop - start)).map (fun i => f (target.row (start + i)))

/-- The comparator `score_descending` on positions of a stored row (knn.hpp:118-124). -/
def before (row : SpVec ℝ) (p q : Nat) : Prop :=
  ∃ a b, row[p]? = some a ∧ row[q]? = some b ∧ (b.2 < a.2 ∨ (a.2 = b.2 ∧ a.1 < b.1))

/-- What the C++ standard guarantees for `std::nth_element(begin, begin + k, end, comp)`: the range is
permuted and no element after position `k` precedes one before it. -/
structure IsNthElement {A : Type} (comp : A → A → Prop) (k : Nat) (l l' : List A) : Prop where
  perm : l'.Perm l
  sep : ∀ a ∈ l'.take k, ∀ b ∈ l'.drop k, ¬ comp b a

/-- Truncation of one row to `top_k` entries (knn.hpp:109-135).  `nth k row` is the buffer after
`nth_element`. -/
def truncRow (nth : Nat → SpVec ℝ → List Nat) (topK : Nat) (row : SpVec ℝ) : SpVec ℝ :=
  let colSize := min row.length topK
  let buffer := if colSize < row.length then nth colSize row else List.range row.length
  ((buffer.take colSize).insertionSort (· ≤ ·)).filterMap (fun i => row[i]?)

/-- `compute_similarity_triple` (knn.hpp:82-140): chunks of `max_chunk_size` rows. -/
def triples (nth : Nat → SpVec ℝ → List Nat) (f : SpVec ℝ → SpVec ℝ) (target : CSR ℝ)
    (maxChunk topK start stop : Nat) : List (Nat × Nat × ℝ) :=
  (List.range ((stop - start + (maxChunk - 1)) / maxChunk)).flatMap (fun c =>
    let cursor := start + c * maxChunk
    let endLocal := min (cursor + maxChunk) stop
    ((simBlock f target cursor endLocal).mapIdx (fun r row =>
      (truncRow nth topK row).map (fun e => (r + cursor, e.1, e.2)))).flatten)

/-- The row ranges given to the threads (knn.hpp:54-72): `n` threads left, the next is number `i`. -/
def jobs (per rem : Nat) : Nat → Nat → Nat → List (Nat × Nat)
  | 0, _, _ => []
  | n + 1, i, start =>
    let b := per + if i < rem then 1 else 0
    (start, start + b) :: jobs per rem n (i + 1) (start + b)

/-- `setFromTriplets`: rows with sorted columns, repeated positions added up. -/
def fromTriplets (nRows nCols : Nat) (ts : List (Nat × Nat × ℝ)) : CSR ℝ :=
  ⟨nCols, (List.range nRows).map (fun r =>
    Split.collapse ((ts.filter (fun t => decide (t.1 = r))).map Prod.snd))⟩

/-- `compute_similarity` after its check (knn.hpp:47-79), for `N` columns.  With several threads each
computes the triples of its own rows from data that nobody writes and they are concatenated in thread
order, so no interleaving is observable. -/
def similarityRows (nth : Nat → SpVec ℝ → List Nat) (f : SpVec ℝ → SpVec ℝ) (N : Nat) (target : CSR ℝ)
    (nThreads maxChunk topK : Nat) : CSR ℝ :=
  if nThreads = 1 then
    fromTriplets target.nrows N (triples nth f target maxChunk topK 0 target.nrows)
  else
    fromTriplets target.nrows N
      ((jobs (target.nrows / nThreads) (target.nrows % nThreads) nThreads 0 0).flatMap (fun j =>
        triples nth f target maxChunk topK j.1 j.2))

/-- Constructor checks (knn.hpp:34-38, similarities.hpp:64, 147-148). -/
def Kind.paramsOk : Kind → Prop
  | .asymmetric alpha => 0 ≤ alpha ∧ alpha ≤ 1
  | .tversky alpha beta => 0 ≤ alpha ∧ 0 ≤ beta
  | _ => True

open Classical in
/-- A computer's constructor followed by `compute_similarity` (knn.hpp:30-80). -/
noncomputable def computeSimilarity (nth : Nat → SpVec ℝ → List Nat) (kind : Kind) (shrinkage : ℝ)
    (X target : CSR ℝ) (nThreads maxChunk topK : Nat) : Except Err (CSR ℝ) :=
  if shrinkage < 0 ∨ nThreads < 1 ∨ maxChunk < 1 ∨ ¬ kind.paramsOk then .error .invalidArgument
  else if target.cols ≠ X.cols then .error .invalidArgument
  else .ok (similarityRows nth (simRow kind shrinkage X) X.nrows target nThreads maxChunk topK)

/-! ## P3alpha, RP3beta -/

/-- The columns of `X_t` in the constructors of P3alpha and RP3beta (similarities.hpp:214-228,
283-297): the entries of an item raised to `alpha` and divided by their sum. -/
noncomputable def itemToUser (alpha : ℝ) (X : CSR ℝ) : CSR ℝ :=
  ⟨X.cols, X.rows.map (fun row =>
    let s := (row.map (fun e => e.2 ^ alpha)).sum
    row.map (fun e => (e.1, e.2 ^ alpha / s)))⟩

/-- `norm_temp(u)` of `compute_W` (similarities.hpp:233-242, 313-322). -/
noncomputable def userNorm (alpha : ℝ) (X : CSR ℝ) (u : Nat) : ℝ :=
  (X.rows.map (fun row => ((row.filter (fun e => decide (e.1 = u))).map (fun e => e.2 ^ alpha)).sum)).sum

open Classical in
/-- `P3alphaComputer(X, alpha, ...).compute_W(X, top_k)` (similarities.hpp:188-255) for the item-user
matrix `X`. -/
noncomputable def p3W (nth : Nat → SpVec ℝ → List Nat) (alpha : ℝ) (X : CSR ℝ)
    (nThreads maxChunk topK : Nat) : Except Err (CSC ℝ) :=
  if alpha < 0 then .error .invalidArgument
  else
    let target : CSR ℝ := ⟨X.cols, X.rows.map (fun row =>
      row.map (fun e => (e.1, e.2 ^ alpha / userNorm alpha X e.1)))⟩
    match computeSimilarity nth .raw 0 (itemToUser alpha X) target nThreads maxChunk topK with
    | .error e => .error e
    | .ok R => .ok ⟨R.cols, R.rows⟩

open Classical in
/-- `RP3betaComputer(X, alpha, beta, ...).compute_W(X, top_k)` (similarities.hpp:258-339). -/
noncomputable def rp3W (nth : Nat → SpVec ℝ → List Nat) (alpha beta : ℝ) (X : CSR ℝ)
    (nThreads maxChunk topK : Nat) : Except Err (CSC ℝ) :=
  if alpha < 0 ∨ beta < 0 then .error .invalidArgument
  else
    let target : CSR ℝ := ⟨X.cols, X.rows.map (fun row =>
      row.map (fun e => (e.1, e.2 ^ alpha / (userNorm alpha X e.1 * (rowTotal row) ^ beta))))⟩
    match computeSimilarity nth .raw 0 (itemToUser alpha X) target nThreads maxChunk topK with
    | .error e => .error e
    | .ok R => .ok ⟨R.cols, R.rows⟩

/-! ## The recommenders -/

/-- `X.T` as the CSR matrix that reaches the extension module. -/
def transpose (X : CSR ℝ) : CSR ℝ :=
  ⟨X.nrows, (List.range X.cols).map (fun j => (List.range X.nrows).flatMap (fun i =>
    (X.row i).filterMap (fun e => if e.1 = j then some (i, e.2) else none)))⟩

/-- `FeatureWeightingScheme` (knn.py:24-27); for `BM_25` with its parameters. -/
inductive Weighting where
  | none
  | tfIdf
  | bm25 (k1 b : ℝ)

/-- Feature weighting in `_learn` (knn.py:68-75; `tf_idf_weight` smooths by default, wrapper). -/
noncomputable def Weighting.apply (w : Weighting) (X : CSR ℝ) : CSR ℝ :=
  match w with
  | .none => X
  | .tfIdf => Sim.tfIdf X true
  | .bm25 k1 b => Sim.bm25 X k1 b

/-- `BaseKNNRecommender._learn` (knn.py:67-80): the item similarity `W`. -/
noncomputable def itemKnnW (nth : Nat → SpVec ℝ → List Nat) (w : Weighting) (kind : Kind) (shrinkage : ℝ)
    (X : CSR ℝ) (nThreads topK : Nat) : Except Err (CSR ℝ) :=
  match computeSimilarity nth kind shrinkage (transpose (w.apply X)) (transpose X) nThreads 128 topK with
  | .error e => .error e
  | .ok S => removeDiagonal S

/-- `BaseUserKNNRecommender._learn` (user_knn.py:61-74): the user similarity `U`. -/
noncomputable def userKnnU (nth : Nat → SpVec ℝ → List Nat) (w : Weighting) (kind : Kind) (shrinkage : ℝ)
    (X : CSR ℝ) (nThreads topK : Nat) : Except Err (CSR ℝ) :=
  match computeSimilarity nth kind shrinkage (w.apply X) X nThreads 128 topK with
  | .error e => .error e
  | .ok S => removeDiagonal S

/-- `P3alphaRecommender._learn` (p3.py:67-76). -/
noncomputable def p3Learn (nth : Nat → SpVec ℝ → List Nat) (alpha : ℝ) (X : CSR ℝ) (topK : Option Nat)
    (normalizeWeight : Bool) (nThreads : Nat) : Except Err (CSC ℝ) :=
  match p3W nth alpha (transpose X) nThreads 128 (topK.getD X.cols) with
  | .error e => .error e
  | .ok W => .ok (if normalizeWeight then l1NormalizeRow W else W)

/-- `RP3betaRecommender._learn` (rp3.py:74-84). -/
noncomputable def rp3Learn (nth : Nat → SpVec ℝ → List Nat) (alpha beta : ℝ) (X : CSR ℝ)
    (topK : Option Nat) (normalizeWeight : Bool) (nThreads : Nat) : Except Err (CSC ℝ) :=
  match rp3W nth alpha beta (transpose X) nThreads 128 (topK.getD X.cols) with
  | .error e => .error e
  | .ok W => .ok (if normalizeWeight then l1NormalizeRow W else W)

end Irspack.Sim
