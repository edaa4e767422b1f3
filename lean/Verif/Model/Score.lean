import Mathlib.Algebra.BigOperators.Group.Finset.Basic
import Mathlib.Order.WithBot
import Verif.Model.Sparse

/-!
# The score functions of the recommenders (/repo/src/irspack/recommenders)

Numbers are the elements of a semiring `R`; a masked score is an element of `WithBot R`, where `⊥` is
`-inf`.  A dense array is a list of rows; `cols` is its second dimension.
-/

namespace Irspack.Score

variable {R : Type}

/-- A dense two-dimensional array: a row gives a value for each column `< cols`. -/
structure Dense (R : Type) where
  cols : Nat
  rows : List (Nat → R)

/-- entry of a dense array, zero below the last row -/
def Dense.get [Zero R] (A : Dense R) (u j : Nat) : R := A.rows.getD u (fun _ => 0) j

/-- `A.T` -/
def Dense.T [Zero R] (A : Dense R) : Dense R :=
  ⟨A.rows.length, (List.range A.cols).map (fun j i => A.get i j)⟩

/-! ## Indexing -/

/-- An integer index into an axis of length `n`, as numpy and scipy resolve it: negative numbers count
from the end, anything else outside raises `IndexError`. -/
def resolveIndex (n : Nat) (i : Int) : Except Err Nat :=
  if 0 ≤ i then (if i < n then .ok i.toNat else .error .indexError)
  else if 0 ≤ i + n then .ok (i + n).toNat
  else .error .indexError

/-- An integer index array. -/
def resolveAll (n : Nat) (idx : List Int) : Except Err (List Nat) := idx.mapM (resolveIndex n)

/-- A bound of a slice, clipped to `0 … n`. -/
def clip (n : Nat) (i : Int) : Nat := if 0 ≤ i then min i.toNat n else (i + n).toNat

/-- `X[idx]` for a sparse matrix -/
def pickRows (X : CSR R) (idx : List Int) : Except Err (CSR R) := do
  let l ← resolveAll X.nrows idx
  return ⟨X.cols, l.map X.row⟩

/-- `X[begin:end]` for a sparse matrix -/
def sliceRows (X : CSR R) (b e : Int) : CSR R :=
  ⟨X.cols, (X.rows.take (clip X.nrows e)).drop (clip X.nrows b)⟩

/-- `A[idx]` for a dense array -/
def Dense.pick [Zero R] (A : Dense R) (idx : List Int) : Except Err (Dense R) := do
  let l ← resolveAll A.rows.length idx
  return ⟨A.cols, l.map (fun u j => A.get u j)⟩

/-- `A[begin:end]` for a dense array -/
def Dense.slice (A : Dense R) (b e : Int) : Dense R :=
  ⟨A.cols, (A.rows.take (clip A.rows.length e)).drop (clip A.rows.length b)⟩

/-! ## Products -/

section
variable [Semiring R]

/-- `X.dot(W)` for a sparse `X` and a sparse or dense `W`; the shapes must fit. -/
def dotSparse (X : CSR R) (W : Dense R) : Except Err (Dense R) :=
  if X.cols = W.rows.length then
    .ok ⟨W.cols, X.rows.map (fun row j => (row.map (fun e => e.2 * W.get e.1 j)).sum)⟩
  else .error .valueError

/-- `A.dot(B)` for dense arrays -/
def dotDense (A B : Dense R) : Except Err (Dense R) :=
  if A.cols = B.rows.length then
    .ok ⟨B.cols, A.rows.map (fun a j => ∑ c ∈ Finset.range A.cols, a c * B.get c j)⟩
  else .error .valueError

/-- `A + b[np.newaxis, :]` -/
def Dense.addRow (A : Dense R) (b : Nat → R) : Dense R := ⟨A.cols, A.rows.map (fun a j => a j + b j)⟩

end

/-! ## The base class -/

/-- What a recommender class implements: the training matrix and the three score functions
(base.py:94-105, 284-306, 339-351). -/
structure Recommender (R : Type) where
  X : CSR R
  getScore : List Int → Except Err (Dense R)
  getScoreBlock : Int → Int → Except Err (Dense R)
  getScoreColdUser : CSR R → Except Err (Dense R)

/-- the defaults of `get_score_block` and `get_score_cold_user` (base.py:297-306, 339-351) -/
def defaultBlock (_ _ : Int) : Except Err (Dense R) := .error .notImplemented

/-- see `defaultBlock` -/
def defaultCold (_ : CSR R) : Except Err (Dense R) := .error .notImplemented

section
variable [Semiring R] [DecidableEq R]

/-- row `u` stores a non-zero entry in column `j` -/
def nonzeroAt (m : CSR R) (u j : Nat) : Bool := (m.row u).any (fun e => e.1 == j && decide (e.2 ≠ 0))

/-- `scores[m.nonzero()] = -np.inf` (base.py:321, 336, 402): the stored non-zero entries of `m`, an
`IndexError` if one lies outside `scores`. -/
def maskSeen (m : CSR R) (s : Dense R) : Except Err (Dense (WithBot R)) :=
  if (List.range m.nrows).all (fun u => (m.row u).all (fun e =>
      decide (e.2 = 0) || (decide (u < s.rows.length) && decide (e.1 < s.cols)))) then
    .ok ⟨s.cols, s.rows.mapIdx (fun u row j => if nonzeroAt m u j then ⊥ else (row j : WithBot R))⟩
  else .error .indexError

/-- `get_score_remove_seen` (base.py:308-322) -/
def Recommender.getScoreRemoveSeen (r : Recommender R) (users : List Int) :
    Except Err (Dense (WithBot R)) := do
  let scores ← r.getScore users
  let m ← pickRows r.X users
  maskSeen m scores

/-- `get_score_remove_seen_block` (base.py:324-337) -/
def Recommender.getScoreRemoveSeenBlock (r : Recommender R) (b e : Int) :
    Except Err (Dense (WithBot R)) := do
  let scores ← r.getScoreBlock b e
  maskSeen (sliceRows r.X b e) scores

/-- `get_score_cold_user_remove_seen` (base.py:390-403) -/
def Recommender.getScoreColdUserRemoveSeen (r : Recommender R) (X : CSR R) :
    Except Err (Dense (WithBot R)) := do
  let scores ← r.getScoreColdUser X
  maskSeen X scores

end

/-! ## Item and user similarity -/

section
variable [Semiring R]

/-- the property `W` (base.py:416-421), and `U` (base.py:442-447): an attribute that is `None` before
`learn` -/
def fitted {A : Type} (w : Option A) : Except Err A :=
  match w with
  | none => .error .runtimeError
  | some w => .ok w

/-- `BaseSimilarityRecommender` (base.py:406-429).  Python evaluates `self.X_train_all[user_indices]`
before it fetches `self.W`. -/
def similarity (X : CSR R) (W : Option (Dense R)) : Recommender R where
  X := X
  getScore users := do
    let x ← pickRows X users
    let w ← fitted W
    dotSparse x w
  getScoreBlock b e := do
    let w ← fitted W
    dotSparse (sliceRows X b e) w
  getScoreColdUser x := do
    let w ← fitted W
    dotSparse x w

/-- A sparse matrix as a dense array (`toarray`). -/
def toDense (X : CSR R) : Dense R := ⟨X.cols, (List.range X.nrows).map (fun u j => X.get u j)⟩

/-- `BaseUserSimilarityRecommender` (base.py:432-453), with the sparse `U` that the user-KNN
recommenders learn (user_knn.py:60-76) -/
def userSimilarity (X : CSR R) (U : Option (CSR R)) : Recommender R where
  X := X
  getScore users := do
    let u ← fitted U
    let m ← pickRows u users
    dotSparse m (toDense X)
  getScoreBlock b e := do
    let u ← fitted U
    dotSparse (sliceRows u b e) (toDense X)
  getScoreColdUser := defaultCold

/-! ## Popularity -/

/-- `_learn` of `TopPopRecommender` (toppop.py:33-34): the column sums. -/
def popularity (X : CSR R) : Nat → R := fun j => (X.rows.map (fun row => SpVec.get row j)).sum

/-- `TopPopRecommender` (toppop.py:14-50): the learnt row repeated; only the number of users matters. -/
def topPop (X : CSR R) (score : Option (Nat → R)) : Recommender R where
  X := X
  getScore users := do
    let s ← fitted score
    return ⟨X.cols, List.replicate users.length s⟩
  getScoreBlock := defaultBlock
  getScoreColdUser x := do
    let s ← fitted score
    return ⟨X.cols, List.replicate x.nrows s⟩

/-! ## Embeddings -/

/-- A learnt factorisation: user rows, item rows (one per item) and item biases (zero for all but
BPRFM). -/
structure Embedding (R : Type) where
  user : Dense R
  item : Dense R
  bias : Nat → R

/-- `get_user_embedding` (truncsvd.py:99-100, bpr.py:160-162, ials.py:526-527) -/
def getUserEmbedding (m : Option (Embedding R)) : Except Err (Dense R) := do
  let m ← fitted m
  return m.user

/-- `get_item_embedding` (truncsvd.py:108-110, bpr.py:173-175, ials.py:535-536).  For TruncatedSVD this
is `components_.T`; its `components_` is `item.T` here. -/
def getItemEmbedding (m : Option (Embedding R)) : Except Err (Dense R) := do
  let m ← fitted m
  return m.item

/-- `get_score_from_user_embedding` (truncsvd.py:102-106, bpr.py:164-171, ials.py:529-533) -/
def getScoreFromUserEmbedding (m : Option (Embedding R)) (e : Dense R) : Except Err (Dense R) := do
  let m ← fitted m
  let s ← dotDense e m.item.T
  return s.addRow m.bias

/-- `get_score_from_item_embedding` (truncsvd.py:112-116, bpr.py:177-184, ials.py:629-635): without the
biases -/
def getScoreFromItemEmbedding (m : Option (Embedding R)) (users : List Int) (e : Dense R) :
    Except Err (Dense R) := do
  let m ← fitted m
  let u ← m.user.pick users
  dotDense u e.T

/-- TruncatedSVD (truncsvd.py:85-97), BPRFM (bpr.py:146-158) and the `get_score` of IALS (ials.py:477-481).
`transform` is the embedding of new users by the factorisation, where there is one. -/
def factorised (X : CSR R) (m : Option (Embedding R)) (transform : Option (CSR R → Except Err (Dense R))) :
    Recommender R where
  X := X
  getScore users := do
    let m ← fitted m
    let u ← m.user.pick users
    let s ← dotDense u m.item.T
    return s.addRow m.bias
  getScoreBlock b e := do
    let m ← fitted m
    let s ← dotDense (m.user.slice b e) m.item.T
    return s.addRow m.bias
  getScoreColdUser x :=
    match transform with
    | none => .error .notImplemented
    | some f => do
      let _ ← fitted m
      let e ← f x
      getScoreFromUserEmbedding m e

/-- `NMFRecommender` (nmf.py:66-72): `self.W[user_indices].dot(self.H)`, where `W` is `user` and `H` is
`item.T`; there is no block version, and the attributes do not exist before `learn`. -/
def nmf (X : CSR R) (m : Option (Embedding R)) (transform : CSR R → Except Err (Dense R)) :
    Recommender R where
  X := X
  getScore users := do
    match m with
    | none => .error .attributeError
    | some m =>
      let u ← m.user.pick users
      dotDense u m.item.T
  getScoreBlock := defaultBlock
  getScoreColdUser x := do
    match m with
    | none => .error .attributeError
    | some m =>
      let e ← transform x
      dotDense e m.item.T

/-- the constructor of TruncatedSVD (truncsvd.py:48-62): the number of components used -/
def truncatedComponents (nItems nComponents : Nat) : Except Err Nat :=
  if 1 < nItems then .ok (if nComponents ≥ nItems then nItems - 1 else nComponents)
  else .error .assertionError

end

end Irspack.Score
