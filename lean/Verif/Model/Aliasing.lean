import Mathlib.Data.Real.Basic
import Mathlib.Data.List.Sort
import Mathlib.Data.List.Dedup

/-!
# Sparse matrices in memory: what objects share with the matrices of the caller

Elsewhere matrices are values.  Here a `scipy.sparse` matrix is an object that refers to a buffer of
values and a buffer of indices, and several objects may refer to the same buffer.  The behaviour of
scipy that matters (1.x, `_cs_matrix.__init__`, `_data_matrix.astype`, `sort_indices`,
`sum_duplicates`): `csr_matrix(X)` of a CSR matrix refers to the buffers of `X`; with a `dtype` the
values are converted into a new buffer if they have another type, the indices are still those of `X`;
`astype` copies both; `sort_indices` permutes both in place.

Simplifications: both buffers are kept cut at `indptr`, which no function here writes; whether the
indices are sorted is looked up, not cached; conversions to float64 are exact.
-/

namespace Irspack.Aliasing

/-- The contents of all buffers; those from `next` on have not been allocated. -/
structure Heap where
  data : Nat → List (List ℝ)
  idx : Nat → List (List Nat)
  next : Nat

inductive Fmt where
  | csr
  | csc
  deriving DecidableEq

inductive Dtype where
  | float64
  | float32
  | other
  deriving DecidableEq

/-- A sparse matrix object: its format, type and shape, and the buffers it refers to. -/
structure Obj where
  fmt : Fmt
  dtype : Dtype
  rows : Nat
  cols : Nat
  data : Nat
  idx : Nat

/-- A stored row (CSR) or column (CSC): pairs of index and value. -/
abbrev Line := List (Nat × ℝ)

/-- The stored rows or columns of `X` now. -/
def Obj.lines (h : Heap) (X : Obj) : List Line := List.zipWith List.zip (h.idx X.idx) (h.data X.data)

/-- The stored rows of `X` now (`tocsr`). -/
def Obj.rowLines (h : Heap) (X : Obj) : List Line :=
  match X.fmt with
  | .csr => X.lines h
  | .csc => (List.range X.rows).map (fun r => (X.lines h).zipIdx.flatMap (fun col =>
      col.1.filterMap (fun e => if e.1 = r then some (col.2, e.2) else none)))

/-- New buffers with the given contents, and a CSR matrix that refers to them. -/
def Heap.alloc (h : Heap) (dtype : Dtype) (rows cols : Nat) (lines : List Line) : Heap × Obj :=
  ({ data := Function.update h.data h.next (lines.map (fun l => l.map Prod.snd))
     idx := Function.update h.idx h.next (lines.map (fun l => l.map Prod.fst))
     next := h.next + 1 },
   ⟨.csr, dtype, rows, cols, h.next, h.next⟩)

/-- `sps.csr_matrix(X)` and `X.tocsr()`: a CSR matrix is not copied. -/
def csrMatrix (h : Heap) (X : Obj) : Heap × Obj :=
  match X.fmt with
  | .csr => (h, X)
  | .csc => h.alloc X.dtype X.rows X.cols (X.rowLines h)

/-- `sum_duplicates` on one row: the indices in order, each once, with the total of its values. -/
def sumDuplicates (l : Line) : Line :=
  ((l.map Prod.fst).insertionSort (· ≤ ·)).dedup.map (fun k => (k, ((l.filter (fun e => e.1 = k)).map Prod.snd).sum))

/-- `X.astype(dtype)` of a CSR matrix; `round` is the conversion.  With the same type this is a copy;
otherwise the values are converted and duplicates are added up. -/
def astype (round : ℝ → ℝ) (h : Heap) (X : Obj) (dtype : Dtype) : Heap × Obj :=
  if X.dtype = dtype then h.alloc dtype X.rows X.cols (X.lines h)
  else h.alloc dtype X.rows X.cols ((X.lines h).map (fun l => sumDuplicates (l.map (fun e => (e.1, round e.2)))))

/-- `has_sorted_indices` -/
def Obj.Sorted (h : Heap) (X : Obj) : Prop := ∀ l ∈ h.idx X.idx, l.Pairwise (· ≤ ·)

instance (h : Heap) (X : Obj) : Decidable (X.Sorted h) := by unfold Obj.Sorted; infer_instance

/-- one row in the order of its indices -/
def sortLine (l : Line) : Line := l.insertionSort (fun a b => a.1 ≤ b.1)

/-- `X.sort_indices()`: in place. -/
def sortIndices (h : Heap) (X : Obj) : Heap :=
  if X.Sorted h then h
  else { h with
    data := Function.update h.data X.data ((X.lines h).map (fun l => (sortLine l).map Prod.snd))
    idx := Function.update h.idx X.idx ((X.lines h).map (fun l => (sortLine l).map Prod.fst)) }

/-- A CSR matrix is handed to a native function, which gets a copy of its rows.  nanobind's conversion
(`nanobind/eigen/sparse.h`, outside /repo) sorts the indices of the object first, in place; `sorts` says
whether it does. -/
def toNative (sorts : Bool) (h : Heap) (X : Obj) : Heap × List Line :=
  let h := if sorts then sortIndices h X else h
  (h, X.lines h)

/-! ## The constructors of the package -/

/-- `BaseRecommender.__init__` (base.py:93-101): `X_train_all`. -/
def recommenderInit (h : Heap) (X : Obj) : Heap × Obj :=
  let (h, X) := csrMatrix h X
  let (h, X) := astype id h X .float64
  (sortIndices h X, X)

/-- What an `Evaluator` keeps: the ground truth inside `EvaluatorCore`, and the object
`masked_interactions`. -/
structure Evaluator where
  core : List Line
  mask : Option Obj

/-- `Evaluator.__init__` (evaluator.py:114-115, 134, 152-159). -/
def evaluatorInit (sorts : Bool) (h : Heap) (groundTruth : Obj) (mask : Option Obj) : Heap × Evaluator :=
  let (h, G) := csrMatrix h groundTruth
  let (h, G) := astype id h G .float64
  let h := sortIndices h G
  let (h, core) := toNative sorts h G
  match mask with
  | none => (h, ⟨core, none⟩)
  | some m =>
    let (h, m) := csrMatrix h m
    (h, ⟨core, some m⟩)

/-- What an `EvaluatorWithColdUser` keeps: `input_interaction`, and the mask made from it. -/
structure ColdEvaluator where
  core : List Line
  input : Obj
  mask : Obj

/-- `EvaluatorWithColdUser.__init__` (evaluator.py:551-579) without cold items and without
`masked_interactions`. -/
def coldEvaluatorInit (sorts : Bool) (h : Heap) (input groundTruth : Obj) : Heap × ColdEvaluator :=
  let (h, e) := evaluatorInit sorts h groundTruth none
  let (h, m) := csrMatrix h input
  (h, ⟨e.core, input, m⟩)

/-- What a `UserTrainTestInteractionPair` keeps. -/
structure Pair where
  train : Obj
  test : Obj
  all : Obj

/-- `X_train + X_test` row by row: duplicates added up, zeros dropped. -/
noncomputable def addLines (a b : List Line) : List Line :=
  List.zipWith (fun x y => (sumDuplicates (x ++ y)).filter (fun e => e.2 ≠ 0)) a b

/-- `UserTrainTestInteractionPair.__init__` (split/userwise.py:54-75) with both matrices given and of the
same shape. -/
noncomputable def pairInit (h : Heap) (train test : Obj) : Heap × Pair :=
  let (h, te) := csrMatrix h test
  let (h, tr) := csrMatrix h train
  let (h, all) := h.alloc train.dtype train.rows train.cols (addLines (tr.lines h) (te.lines h))
  (h, ⟨tr, te, all⟩)

/-- `df_train()` and `df_test()` (split/userwise.py:82-100): the side effect. -/
def toDf (h : Heap) (X : Obj) : Heap := sortIndices h X

/-- `_feature_matrix_as_float32` (ials.py:58-61) of a sparse matrix. -/
def featureMatrix (round : ℝ → ℝ) (h : Heap) (X : Obj) : Heap × Obj :=
  match X.fmt with
  | .csr =>
    if X.dtype = .float32 then (h, X)
    else ({ h with data := Function.update h.data h.next ((h.data X.data).map (fun l => l.map round)), next := h.next + 1 },
      { X with dtype := .float32, data := h.next })
  | .csc =>
    let r := if X.dtype = .float32 then id else round
    h.alloc .float32 X.rows X.cols ((X.rowLines h).map (fun l => l.map (fun e => (e.1, r e.2))))

/-- `IALSTrainer.__init__` with a feature matrix the recommender keeps (ials.py:115-129): converted once
more and handed to `CoreTrainer`, which gets the rows returned here.  `transform_user_with_feature`,
`transform_item_with_feature`, `transform_user_feature` and `transform_item_feature` (ials.py:169-203) do
the same with the features of the call. -/
def nativeFeatures (round : ℝ → ℝ) (sorts : Bool) (h : Heap) (X : Obj) : Heap × List Line :=
  let (h, F) := featureMatrix round h X
  toNative sorts h F

/-- `compute_reg_scale` (ials.py:232-244): the side effect.  `tocsc()` makes new buffers. -/
def computeRegScale (h : Heap) (X : Obj) : Heap :=
  let (h, X) := csrMatrix h X
  sortIndices h X

end Irspack.Aliasing
