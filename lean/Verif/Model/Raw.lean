import Verif.Model.Evaluator
import Verif.Model.Retrieval
import Verif.Model.Split
import Verif.Model.Similarity
import Verif.Model.IalsRecommender

/-!
# The native routines on arrays

The other models use functions and lists that answer every index.  Here the same routines run on arrays
of fixed length, as in C++: an index outside its array is a `Fault` (undefined behaviour).  Eigen's and
the standard library's own checks are assertions, which release builds leave out.

`x.at(i)` and iterators over a whole container cannot leave the array and need no check.
-/

namespace Irspack.Raw

open Irspack Evaluation

/-- Undefined behaviour. -/
inductive Fault where
  /-- an array is accessed outside its bounds -/
  | outOfBounds
  /-- two matrices are multiplied whose inner dimensions differ (Eigen asserts this; with `NDEBUG` it
  goes on and indexes one of them with the other's indices) -/
  | innerDimension
  deriving DecidableEq, Repr

section
variable {A B : Type}

/-- `a[i]` on a C++ vector, pointer or Eigen vector of known length: no check in the code
(e.g. evaluator.cpp:148, 335; util.hpp:99, 181). -/
def read (a : List A) (i : Nat) : Except Fault A :=
  match a[i]? with
  | some x => .ok x
  | none => .error .outOfBounds

/-- `a[i] = f(a[i])` (e.g. evaluator.cpp:146; util.hpp:171). -/
def modify (a : List A) (i : Nat) (f : A → A) : Except Fault (List A) :=
  if i < a.length then .ok (a.modify i f) else .error .outOfBounds

/-- A loop that appends the result of its body (e.g. util.hpp:98-101). -/
def mapE (f : A → Except Fault B) : List A → Except Fault (List B)
  | [] => .ok []
  | a :: l =>
    match f a with
    | .error e => .error e
    | .ok b =>
      match mapE f l with
      | .error e => .error e
      | .ok bs => .ok (b :: bs)

/-- A loop that updates its variables (e.g. evaluator.cpp:144-152). -/
def foldE (f : B → A → Except Fault B) : B → List A → Except Fault B
  | b, [] => .ok b
  | b, a :: l =>
    match f b a with
    | .error e => .error e
    | .ok b' => foldE f b' l

end

/-! ## Compressed sparse rows -/

/-- The three arrays of a compressed row-major matrix and its shape (`Eigen::SparseMatrix` after
`makeCompressed`, and what scipy hands over; util.hpp:21-22). -/
structure CsrArrays (R : Type) where
  nRows : Nat
  nCols : Nat
  indptr : List Nat
  indices : List Nat
  data : List R

variable {R : Type}

/-- `makeCompressed()` (evaluator.cpp:191, util.hpp:163, IALSTrainer.hpp:715-716). -/
def compress (X : CSR R) : CsrArrays R where
  nRows := X.nrows
  nCols := X.cols
  indptr := (List.range (X.nrows + 1)).map (fun k => ((X.rows.map List.length).take k).sum)
  indices := X.rows.flatten.map Prod.fst
  data := X.rows.flatten.map Prod.snd

/-- `for (InnerIterator it(X, r); it; ++it)` collects `(it.col(), it.value())`: it reads
`outerIndexPtr()[r]` and `[r + 1]`, then the two arrays in between (evaluator.cpp:229-232,
util.hpp:90-95, IALSTrainer.hpp:862-870). -/
def innerIterator (X : CsrArrays R) (r : Nat) : Except Fault (SpVec R) :=
  match read X.indptr r with
  | .error e => .error e
  | .ok b =>
    match read X.indptr (r + 1) with
    | .error e => .error e
    | .ok e =>
      mapE (fun k =>
        match read X.indices k with
        | .error e => .error e
        | .ok c =>
          match read X.data k with
          | .error e => .error e
          | .ok v => .ok (c, v)) (List.range' b (e - b))

/-! ## Evaluator -/

/-- `Metrics` with its arrays: `item_cnt` has `n_item` entries (evaluator.cpp:49-57, 168-178). -/
structure RawMetrics where
  validUser : Nat
  totalUser : Nat
  hit : ℝ
  recall : ℝ
  ndcg : ℝ
  precision : ℝ
  map : ℝ
  itemCnt : List Nat

/-- `Metrics(n_item)` (evaluator.cpp:53-57). -/
noncomputable def RawMetrics.empty (nItems : Nat) : RawMetrics :=
  ⟨0, 0, 0, 0, 0, 0, 0, List.replicate nItems 0⟩

/-- The same accumulator with the counts as a function of the item. -/
def RawMetrics.view (m : RawMetrics) : Metrics :=
  ⟨m.validUser, m.totalUser, m.hit, m.recall, m.ndcg, m.precision, m.map, fun i => m.itemCnt.getD i 0⟩

/-- `dcg_discount`, a vector of `n_item` numbers (evaluator.cpp:42-48, 53-57). -/
noncomputable def discountTable (nItems : Nat) : List ℝ := (List.range nItems).map dcgDiscount

/-- Loop variables of `Metrics::update` (evaluator.cpp:136-144). -/
structure RawAcc where
  i : Nat
  dcg : ℝ
  cumHit : Nat
  averagePrecision : ℝ
  itemCnt : List Nat

/-- One iteration (evaluator.cpp:144-152): `item_cnt(rec_index) += 1`, and on a hit
`dcg_discount[i]`. -/
noncomputable def rawStep (table : List ℝ) (gt : Finset Nat) (a : RawAcc) (rec : Nat) :
    Except Fault RawAcc :=
  match modify a.itemCnt rec (· + 1) with
  | .error e => .error e
  | .ok cnt =>
    if rec ∈ gt then
      match read table a.i with
      | .error e => .error e
      | .ok d => .ok
          { i := a.i + 1
            dcg := a.dcg + d
            cumHit := a.cumHit + 1
            averagePrecision := a.averagePrecision + ((a.cumHit + 1 : Nat) : ℝ) / ((a.i : ℝ) + 1)
            itemCnt := cnt }
    else .ok { a with i := a.i + 1, itemCnt := cnt }

/-- `Metrics::update` (evaluator.cpp:127-166).  `std::accumulate` reads the first
`min(n_gt, n_recommendable_items)` entries of `dcg_discount`. -/
noncomputable def RawMetrics.update (nItems : Nat) (m : RawMetrics) (recs : List Nat) (gt : Finset Nat)
    (recallWithCutoff : Bool) : Except Fault RawMetrics :=
  let nGt := gt.card
  let nRec := recs.length
  let m := { m with validUser := m.validUser + 1 }
  if nRec = 0 then .ok m
  else
    match mapE (read (discountTable nItems)) (List.range (min nGt nRec)) with
    | .error e => .error e
    | .ok ideal =>
      match foldE (rawStep (discountTable nItems) gt)
          { i := 0, dcg := 0, cumHit := 0, averagePrecision := 0, itemCnt := m.itemCnt } recs with
      | .error e => .error e
      | .ok a => .ok
          { m with
            itemCnt := a.itemCnt
            hit := if a.cumHit > 0 then m.hit + 1 else m.hit
            precision := m.precision + (a.cumHit : ℝ) / (nRec : ℝ)
            recall := m.recall + (a.cumHit : ℝ) /
              ((if recallWithCutoff then (if nGt > nRec then nRec else nGt) else nGt : Nat) : ℝ)
            ndcg := m.ndcg + a.dcg / ideal.sum
            map := m.map + a.averagePrecision / (nGt : ℝ) }

/-- A row-major dense matrix as `Eigen::Ref` sees a numpy array: `rows × cols` elements, row `u` starts
at `data[stride * u]`.  A C-contiguous array has `stride = cols`, a column slice of a wider array
keeps the stride of that array (evaluator.cpp:256-260). -/
structure View (S : Type) where
  rows : Nat
  cols : Nat
  stride : Nat
  data : List S

section scores
variable {S : Type} [LinearOrder S] [OrderBot S]

/-- the rows of the array -/
def View.scoreRows (v : View S) : List (ScoreRow S) :=
  (List.range v.rows).map (fun u i => (v.data[v.stride * u + i]?).getD ⊥)

/-- The gather loops of `get_metrics_local` (evaluator.cpp:312, 323-348): row `u` is taken to start at
`scores.data() + n_items * u`; neither the number of columns nor the stride of `scores` is used. -/
def rawCandidates (nItems : Nat) (rec : Option (List Nat)) (data : List S) (u : Nat) :
    Except Fault (List (S × Nat)) :=
  match mapE (fun i =>
      match read data (nItems * u + i) with
      | .error e => .error e
      | .ok s => .ok (s, i))
      (match rec with
        | none => List.range nItems
        | some l => l) with
  | .error e => .error e
  | .ok l => .ok (l.filter (fun p => decide (p.1 ≠ ⊥)))

/-- The recommendable list for row `u` (evaluator.cpp:324-341): `recommendable_items[u_orig]` is not
checked. -/
def rawRecommendable (c : Core) (u : Nat) : Except Fault (Option (List Nat)) :=
  match c.recommendable with
  | [] => .ok none
  | [l] => .ok (some l)
  | ls =>
    match read ls u with
    | .error e => .error e
    | .ok l => .ok (some l)

/-- The loop body of `get_metrics_local` (evaluator.cpp:312-364). -/
noncomputable def rawEvalRow (c : Core) (v : View S) (cutoff offset : Nat) (recallWithCutoff : Bool)
    (u : Nat) (m : RawMetrics) : Except Fault RawMetrics :=
  let gt := c.gtSet (u + offset)
  let m := { m with totalUser := m.totalUser + 1 }
  if gt = ∅ then .ok m
  else
    match rawRecommendable c (u + offset) with
    | .error e => .error e
    | .ok rec =>
      match rawCandidates c.nItems rec v.data u with
      | .error e => .error e
      | .ok cand =>
        m.update c.nItems (((cand.mergeSort pairLE).take (min cutoff cand.length)).map Prod.snd) gt
          recallWithCutoff

/-- A worker whose local state may be lost to a fault. -/
def lift {L : Type} (f : L → Except Fault L) : Except Fault L → Except Fault L
  | .error e => .error e
  | .ok l => f l

/-- `EvaluatorCore::get_metrics` (evaluator.cpp:256-284, 291-367) on arrays. -/
noncomputable def rawGetMetrics (c : Core) (v : View S) (cutoff offset nThreads : Nat)
    (recallWithCutoff : Bool) (sched : List (Fin nThreads)) :
    Region nThreads (Except Fault RawMetrics) Unit :=
  match c.checkArgs v.rows cutoff offset nThreads with
  | .error e => .error e
  | .ok () => .ok (WorkQueue.run v.rows 1
      (fun u l m => (lift (rawEvalRow c v cutoff offset recallWithCutoff u) l, m))
      (WorkQueue.init (.ok (RawMetrics.empty c.nItems)) ()) sched)

end scores

/-- The worker loop body of `evaluate_list_vs_list` (evaluator.cpp:414-422). -/
noncomputable def rawListRow (nItems : Nat) (recs gts : List (List Nat)) (u : Nat) (m : RawMetrics) :
    Except Fault RawMetrics :=
  RawMetrics.update nItems { m with totalUser := m.totalUser + 1 } (recs.getD u [])
    (gts.getD u []).toFinset false

/-- `evaluate_list_vs_list` (evaluator.cpp:376-431) on arrays. -/
noncomputable def rawEvaluateList (recs gts : List (List Nat)) (nItems nThreads : Nat)
    (sched : List (Fin nThreads)) : Region nThreads (Except Fault RawMetrics) Unit :=
  match checkLists recs gts nItems with
  | .error e => .error e
  | .ok () => .ok (WorkQueue.run recs.length 1
      (fun u l m => (lift (rawListRow nItems recs gts u) l, m))
      (WorkQueue.init (.ok (RawMetrics.empty nItems)) ()) sched)

/-! ## Retrieval -/

section retrieval
variable {S F : Type} [LinearOrder F] [OrderBot F]

/-- Candidates of row `u` (util.hpp:457-478): `score_ptr = score.data() + n_items * current`, then
`score_ptr[item_index]` for allowed indices in range, or the `n_items` elements from there. -/
def rawHolder (cast : S → F) (nItems : Nat) (allowed : Option (List Int)) (data : List S) (u : Nat) :
    Except Fault (List (Nat × F)) :=
  mapE (fun i =>
      match read data (nItems * u + i) with
      | .error e => .error e
      | .ok s => .ok (i, cast s))
    (match allowed with
      | some l => (l.filter (fun i : Int => decide (i < nItems) && decide (i ≥ 0))).map Int.toNat
      | none => List.range nItems)

/-- Body of the worker loop (util.hpp:456-498): `result[current]` is overwritten. -/
def rawRetrieveRow (psort : Nat → List (Nat × F) → List (Nat × F)) (cast : S → F) (nItems : Nat)
    (data : List S) (allowed : List (List Int)) (cutoff u : Nat) (l : Except Fault Unit)
    (res : List (List (Nat × F))) : Except Fault Unit × List (List (Nat × F)) :=
  match rawHolder cast nItems (Retrieval.allowedFor allowed u) data u with
  | .error e => (.error e, res)
  | .ok h =>
    match modify res u (fun _ => Retrieval.emit cutoff 0 (psort (min cutoff h.length) h)) with
    | .error e => (.error e, res)
    | .ok res' => (l, res')

/-- `retrieve_recommend_from_score` (util.hpp:426-504) on arrays; the score matrix is an Eigen matrix,
hence contiguous.  `result` is a vector of `score.rows()` lists. -/
def rawRetrieve (psort : Nat → List (Nat × F) → List (Nat × F)) (cast : S → F)
    (nRows nItems : Nat) (data : List S) (allowed : List (List Int)) (cutoff nThreads : Nat)
    (sched : List (Fin (min nThreads nRows))) :
    Region (min nThreads nRows) (Except Fault Unit) (List (List (Nat × F))) :=
  match Retrieval.checkRetrieve nRows allowed.length nThreads with
  | .error e => .error e
  | .ok () => .ok (WorkQueue.run nRows 1 (rawRetrieveRow psort cast nItems data allowed cutoff)
      (WorkQueue.init (.ok ()) (List.replicate nRows [])) sched)

end retrieval

/-! ## Row-wise split -/

/-- `col_buffer[index_[i]]` and `data_buffer[index_[i]]` (util.hpp:98-105). -/
noncomputable def splitPick (row : List (Nat × ℝ)) (index : List Nat) (i : Nat) :
    Except Fault (Nat × ℤ) :=
  match read index i with
  | .error e => .error e
  | .ok k =>
    match read (row.map Prod.fst) k with
    | .error e => .error e
    | .ok c =>
      match read (row.map Prod.snd) k with
      | .error e => .error e
      | .ok x => .ok (c, Split.truncZ x)

/-- One row of `split_imple` (util.hpp:85-106): the shuffled `index_`, the test loop
`i < n_test` and the train loop `n_test ≤ i < col_buffer.size()`.  (train, test). -/
noncomputable def rawSplitRow (nTest : Nat → Nat) (row : List (Nat × ℝ)) (index : List Nat) :
    Except Fault (List (Nat × ℤ) × List (Nat × ℤ)) :=
  let n := nTest row.length
  match mapE (splitPick row index) (List.range n) with
  | .error e => .error e
  | .ok test =>
    match mapE (splitPick row index) (List.range' n (row.length - n)) with
    | .error e => .error e
    | .ok train => .ok (train, test)

/-! ## Weighting -/

/-- The counting loop of `okapi_BM_25_weight` and `tf_idf_weight` (util.hpp:169-174, 197-201):
`idf(iter.col()) += 1` on a vector of `X.cols()` entries. -/
def rawDocFreq (X : CsrArrays ℝ) : Except Fault (List Nat) :=
  foldE (fun idf i =>
    match innerIterator X i with
    | .error e => .error e
    | .ok row => foldE (fun idf e => modify idf e.1 (· + 1)) idf row)
    (List.replicate X.nCols 0) (List.range X.nRows)

/-- `doc_length(i) += iter.value()` on a vector of `N` entries (util.hpp:165, 172). -/
noncomputable def rawDocLength (X : CsrArrays ℝ) : Except Fault (List ℝ) :=
  foldE (fun len i =>
    match innerIterator X i with
    | .error e => .error e
    | .ok row => foldE (fun len e => modify len i (· + e.2)) len row)
    (List.replicate X.nRows 0) (List.range X.nRows)

/-- `okapi_BM_25_weight` (util.hpp:158-186): the rows of the result. -/
noncomputable def rawBm25 (X : CsrArrays ℝ) (k1 b : ℝ) : Except Fault (List (SpVec ℝ)) :=
  match rawDocFreq X with
  | .error e => .error e
  | .ok freq =>
    match rawDocLength X with
    | .error e => .error e
    | .ok len =>
      let avgdl := len.sum / X.nRows
      let idf := freq.map (fun n : Nat => Real.log (X.nRows / ((n : ℝ) + 1) + 1))
      mapE (fun i =>
        match read len i with
        | .error e => .error e
        | .ok l =>
          match innerIterator X i with
          | .error e => .error e
          | .ok row => mapE (fun e =>
              match read idf e.1 with
              | .error f => .error f
              | .ok w => .ok (e.1, w * (e.2 * (k1 + 1)) / (e.2 + k1 * (1 - b + b * l / avgdl)))) row)
        (List.range X.nRows)

/-- `tf_idf_weight` (util.hpp:188-209): the rows of the result. -/
noncomputable def rawTfIdf (X : CsrArrays ℝ) (smooth : Bool) : Except Fault (List (SpVec ℝ)) :=
  match rawDocFreq X with
  | .error e => .error e
  | .ok freq =>
    let idf := freq.map (fun n : Nat => Real.log (X.nRows / ((n : ℝ) + if smooth then 1 else 0)))
    mapE (fun i =>
      match innerIterator X i with
      | .error e => .error e
      | .ok row => mapE (fun e =>
          match read idf e.1 with
          | .error f => .error f
          | .ok w => .ok (e.1, e.2 * w)) row)
      (List.range X.nRows)

/-! ## Neighbourhood truncation -/

/-- `compute_similarity_triple` for one row of a block result (knn.hpp:111-136): `buffer` has `N`
entries and is filled with `0, …, nz_size - 1`; `nth` is what `std::nth_element` does to those;
then `index_start[buffer[j]]` and `data_start[buffer[j]]` for the first `col_size`. -/
def rawTruncRow (nth : Nat → SpVec ℝ → List Nat) (nBuffer topK : Nat) (row : SpVec ℝ) :
    Except Fault (SpVec ℝ) :=
  match foldE (fun buf i => modify buf i (fun _ => i)) (List.replicate nBuffer 0)
      (List.range row.length) with
  | .error e => .error e
  | .ok buf =>
    let colSize := min row.length topK
    let filled := buf.take row.length
    let buf' := (if colSize < row.length then nth colSize row else filled) ++ buf.drop row.length
    let sorted := (buf'.take colSize).insertionSort (· ≤ ·) ++ buf'.drop colSize
    mapE (fun j =>
      match read sorted j with
      | .error e => .error e
      | .ok k =>
        match read (row.map Prod.fst) k with
        | .error e => .error e
        | .ok c =>
          match read (row.map Prod.snd) k with
          | .error e => .error e
          | .ok x => .ok (c, x)) (List.range colSize)

/-! ## iALS -/

section ials
open Ials
open scoped Matrix
variable {K : Nat}

/-- the rows of a `DenseMatrix` (IALSTrainer.hpp:990) -/
def factorRows (F : Factor K) : List (Vec K) := (List.range F.n).map F.row

/-- What a row solve (Cholesky, CG or iALS++) and the loss read for row `u` of `X`: for every stored
entry, `other_factor.row(it.col())` and `it.value()` (IALSTrainer.hpp:218-247, 301-307, 862-870). -/
def rawGather (X : CsrArrays ℝ) (other : List (Vec K)) (u : Nat) : Except Fault (List (Vec K × ℝ)) :=
  match innerIterator X u with
  | .error e => .error e
  | .ok row => mapE (fun e =>
      match read other e.1 with
      | .error f => .error f
      | .ok v => .ok (v, e.2)) row

open Classical in
/-- the contribution of user `u` to `compute_loss` (IALSTrainer.hpp:856-879) -/
noncomputable def rawLossUser (tr : Trainer K) (u : Nat) : Except Fault ℝ :=
  match read (factorRows tr.user) u with
  | .error e => .error e
  | .ok x =>
    match rawGather (compress tr.X) (factorRows tr.item) u with
    | .error e => .error e
    | .ok g =>
      let acc := g.foldl (fun (s : ℝ × Nat) e =>
        let prediction := x ⬝ᵥ e.1
        (s.1 + (e.2 * prediction * prediction - 2 * (e.2 + bias tr.cfg) * prediction + e.2
          + bias tr.cfg), s.2 + 1)) (0, 0)
      .ok (if ¬ (tr.featureAware = true ∧ 0 < tr.userW.rows) then
        acc.1 + computeReg tr.cfg acc.2 tr.item.n * Ials.sqNorm x
      else acc.1)

open Classical in
/-- the contribution of item `i` (IALSTrainer.hpp:899-909): two entries of `outerIndexPtr()` and the
item's row -/
noncomputable def rawLossItem (tr : Trainer K) (i : Nat) : Except Fault ℝ :=
  match read (compress tr.Xt).indptr i with
  | .error e => .error e
  | .ok b =>
    match read (compress tr.Xt).indptr (i + 1) with
    | .error e => .error e
    | .ok e =>
      match read (factorRows tr.item) i with
      | .error e => .error e
      | .ok y => .ok (if ¬ (tr.featureAware = true ∧ 0 < tr.itemW.rows) then
          computeReg tr.cfg (e - b) tr.user.n * Ials.sqNorm y
        else 0)

end ials

/-! ## Threaded product -/

/-- Body of the worker loop (util.hpp:61-62): `left.middleRows(...) * right` requires
`left.cols() == right.rows()`; Eigen asserts it. -/
def rawProductRow [Semiring R] (A : CSR R) (B : CSC R) (r : Nat) (l : Except Fault Unit)
    (m : Nat → Nat → R) : Except Fault Unit × (Nat → Nat → R) :=
  if A.cols = B.rows then (l, productWrite A B r m) else (.error .innerDimension, m)

/-- `parallel_sparse_product` (util.hpp:41-70), exported as `sparse_mm_threaded`: the code checks only
`n_threads`. -/
def rawProduct [Semiring R] (A : CSR R) (B : CSC R) (nThreads : Nat) (sched : List (Fin nThreads)) :
    Region nThreads (Except Fault Unit) (Nat → Nat → R) :=
  if nThreads = 0 then .error .invalidArgument
  else .ok (WorkQueue.run A.nrows 16 (rawProductRow A B)
    (WorkQueue.init (.ok ()) (fun _ _ => 0)) sched)

end Irspack.Raw
