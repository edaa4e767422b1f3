import Mathlib.Analysis.SpecialFunctions.Log.Base
import Mathlib.Data.List.Sort
import Verif.Model.Basic
import Verif.Model.Sparse
import Verif.Model.WorkQueue

/-!
# The C++ evaluator (/repo/cpp_source/evaluator.cpp)

Scores live in an arbitrary linear order `S` with least element `⊥`, which stands for `-inf`.
NaN scores are out of scope.  Metric values are exact reals.
-/

namespace Irspack.Evaluation

open Irspack

/-- `dcg_discount[i] = 1 / log2(2 + i)` (evaluator.cpp:42-48). -/
noncomputable def dcgDiscount (i : Nat) : ℝ := 1 / Real.logb 2 (2 + (i : ℝ))

/-- `Metrics` (evaluator.cpp:49-57, 168-179).  The constant `n_item`, equal for all accumulators that
are merged, and the table `dcg_discount` are passed separately.  `item_cnt` is a function on item
indices; only indices `< n_item` are ever incremented (proved in `Props`). -/
@[ext] structure Metrics where
  validUser : Nat
  totalUser : Nat
  hit : ℝ
  recall : ℝ
  ndcg : ℝ
  precision : ℝ
  map : ℝ
  itemCnt : Nat → Nat

/-- `Metrics(n_item)`: all counters zero (evaluator.cpp:53-57, 169-175). -/
noncomputable def Metrics.empty : Metrics where
  validUser := 0
  totalUser := 0
  hit := 0
  recall := 0
  ndcg := 0
  precision := 0
  map := 0
  itemCnt := fun _ => 0

/-- `Metrics::merge` (evaluator.cpp:76-85). -/
noncomputable def Metrics.merge (m other : Metrics) : Metrics where
  hit := m.hit + other.hit
  recall := m.recall + other.recall
  ndcg := m.ndcg + other.ndcg
  totalUser := m.totalUser + other.totalUser
  validUser := m.validUser + other.validUser
  itemCnt := fun i => m.itemCnt i + other.itemCnt i
  precision := m.precision + other.precision
  map := m.map + other.map

/-- `increment_total_user` (evaluator.cpp:125). -/
def Metrics.incrementTotalUser (m : Metrics) : Metrics := { m with totalUser := m.totalUser + 1 }

/-- Loop variables of `Metrics::update` (evaluator.cpp:136-144). -/
structure UpdAcc where
  i : Nat
  dcg : ℝ
  cumHit : Nat
  averagePrecision : ℝ
  itemCnt : Nat → Nat

/-- One iteration of the loop in `Metrics::update` (evaluator.cpp:144-152). -/
noncomputable def updStep (gt : Finset Nat) (a : UpdAcc) (rec : Nat) : UpdAcc :=
  let cnt := Function.update a.itemCnt rec (a.itemCnt rec + 1)
  if rec ∈ gt then
    { i := a.i + 1
      dcg := a.dcg + dcgDiscount a.i
      cumHit := a.cumHit + 1
      averagePrecision := a.averagePrecision + ((a.cumHit + 1 : Nat) : ℝ) / ((a.i : ℝ) + 1)
      itemCnt := cnt }
  else
    { a with i := a.i + 1, itemCnt := cnt }

/-- `Metrics::update` (evaluator.cpp:127-166).  `gt_indices` is an `unordered_set`, i.e. a finite set.
`std::accumulate` over the first `min(n_gt, n_rec)` discounts is the `idcg` sum.  `dcg_discount` has
`n_item` entries; here it is a function on all positions.  `Model/Raw.lean` has the version with
arrays; C74 proves that they agree as long as no hit is beyond position `n_item`. -/
noncomputable def Metrics.update (m : Metrics) (recs : List Nat) (gt : Finset Nat)
    (recallWithCutoff : Bool) : Metrics :=
  let nGt := gt.card
  let nRec := recs.length
  let m := { m with validUser := m.validUser + 1 }
  if nRec = 0 then m
  else
    let idcg := ((List.range (min nGt nRec)).map dcgDiscount).sum
    let a := recs.foldl (updStep gt)
      { i := 0, dcg := 0, cumHit := 0, averagePrecision := 0, itemCnt := m.itemCnt }
    { m with
      itemCnt := a.itemCnt
      hit := if a.cumHit > 0 then m.hit + 1 else m.hit
      precision := m.precision + (a.cumHit : ℝ) / (nRec : ℝ)
      recall := m.recall + (a.cumHit : ℝ) /
        ((if recallWithCutoff then (if nGt > nRec then nRec else nGt) else nGt : Nat) : ℝ)
      ndcg := m.ndcg + a.dcg / idcg
      map := m.map + a.averagePrecision / (nGt : ℝ) }

/-- The dictionary built by `Metrics::as_dict` (evaluator.cpp:111-121). -/
@[ext] structure MetricDict where
  totalUser : ℝ
  validUser : ℝ
  nItems : ℝ
  hit : ℝ
  ndcg : ℝ
  recall : ℝ
  map : ℝ
  precision : ℝ
  appearedItem : ℝ
  entropy : ℝ
  giniIndex : ℝ

/-- Loop variables of `as_dict` (evaluator.cpp:92-96). -/
structure DivAcc where
  i : Nat
  appeared : ℝ
  entropy : ℝ
  gini : ℝ

/-- One iteration over the sorted counts (evaluator.cpp:96-105). -/
noncomputable def divStep (n : Nat) (total : ℝ) (a : DivAcc) (cnt : Nat) : DivAcc :=
  if cnt = 0 then { a with i := a.i + 1 }
  else
    let p := (cnt : ℝ) / total
    { i := a.i + 1
      appeared := a.appeared + 1
      entropy := a.entropy + (-Real.log p * p)
      gini := a.gini + (2 * (a.i : ℝ) - (n : ℝ) + 1) * (cnt : ℝ) }

/-- `Metrics::as_dict` (evaluator.cpp:87-123); `std::sort` ascending is `mergeSort`. -/
noncomputable def Metrics.asDict (n : Nat) (m : Metrics) : MetricDict :=
  let counts := (List.range n).map m.itemCnt
  let total : ℝ := ((counts.sum : Nat) : ℝ)
  let sorted := counts.mergeSort (fun a b => decide (a ≤ b))
  let a := sorted.foldl (divStep n total) { i := 0, appeared := 0, entropy := 0, gini := 0 }
  let gini := if total > 0 then a.gini / ((n : ℝ) * total) else a.gini
  let denominator : Nat := if m.validUser > 0 then m.validUser else 1
  { totalUser := m.totalUser
    validUser := m.validUser
    nItems := n
    hit := m.hit / denominator
    ndcg := m.ndcg / denominator
    recall := m.recall / denominator
    map := m.map / denominator
    precision := m.precision / denominator
    appearedItem := a.appeared
    entropy := a.entropy
    giniIndex := gini }

/-! ## EvaluatorCore -/

/-- `EvaluatorCore` (evaluator.cpp:181-206, 369-373).  Of the ground truth only the stored column
indices of each row are used, so values are dropped; explicit zeros count as stored. -/
structure Core where
  nItems : Nat
  /-- stored columns of each ground-truth row -/
  gtRows : List (List Nat)
  /-- `recommendable_items`, each list sorted -/
  recommendable : List (List Nat)

/-- `n_users(X.rows())` (evaluator.cpp:185) -/
def Core.nUsers (c : Core) : Nat := c.gtRows.length

/-- The duplicate check after sorting: `current > prev` for neighbours (evaluator.cpp:198-204). -/
def strictlyIncreasing : List Nat → Bool
  | [] => true
  | [_] => true
  | a :: b :: rest => decide (b > a) && strictlyIncreasing (b :: rest)

/-- `EvaluatorCore::EvaluatorCore` (evaluator.cpp:183-206): size check, sort, bound check on the last
element, duplicate check. -/
def Core.make (gtRows : List (List Nat)) (nItems : Nat) (recommendable : List (List Nat)) :
    Except Err Core :=
  if ¬ (recommendable = [] ∨ recommendable.length = 1 ∨ gtRows.length = recommendable.length) then
    .error .invalidArgument
  else
    let sorted := recommendable.map (fun l => l.mergeSort (fun a b => decide (a ≤ b)))
    if sorted.all (fun l => (match l.getLast? with | none => true | some b => decide (b < nItems))
        && strictlyIncreasing l) then
      .ok ⟨nItems, gtRows, sorted⟩
    else .error .invalidArgument

/-- The recommendable list that applies to row `u`, or `none` for "all items"
(evaluator.cpp:228, 239-249, 324-341). -/
def Core.recommendableFor (c : Core) (u : Nat) : Option (List Nat) :=
  match c.recommendable with
  | [] => none
  | [l] => some l
  | ls => some (ls.getD u [])

/-- Row `u` of `X_as_set` (`cache_X_map`, evaluator.cpp:226-250): the stored columns, intersected
with the recommendable items if there are any.  `std::set_intersection` on sorted ranges is taken
by contract (both ranges are sorted: Python calls `sort_indices`, evaluator.py:115). -/
def Core.gtSet (c : Core) (u : Nat) : Finset Nat :=
  match c.recommendableFor u with
  | none => (c.gtRows.getD u []).toFinset
  | some l => ((c.gtRows.getD u []).filter (fun j => decide (j ∈ l))).toFinset

/-- `cache_X_map` as it runs on a fresh core (evaluator.cpp:208-254): `X_as_set` is resized to empty
sets, then workers fill row after row.  The workers are started by `std::async` *without* a launch
policy and their futures are dropped, so a worker the runtime defers never runs: `sched` need not
mention it. -/
def Core.cacheRegion (c : Core) (nThreads : Nat) (sched : List (Fin nThreads)) :
    Region nThreads Unit (Nat → Finset Nat) :=
  if ¬ nThreads > 0 then .error .invalidArgument
  else .ok (WorkQueue.run c.nUsers 1
    (fun u l X => (l, Function.update X u (c.gtSet u)))
    (WorkQueue.init () (fun _ => ∅)) sched)

section scores
variable {S : Type} [LinearOrder S] [OrderBot S]

/-- One row of the score matrix; only positions `< n_items` are read. -/
abbrev ScoreRow (S : Type) := Nat → S

/-- Candidate pairs of one row (evaluator.cpp:323-348): recommendable items with score `≠ -inf`, as
(score, index).  The code stores `-score`; negation reverses the order, which `pairLE` accounts for. -/
def candidates (nItems : Nat) (rec : Option (List Nat)) (row : ScoreRow S) : List (S × Nat) :=
  (((match rec with
    | none => List.range nItems
    | some l => l).map (fun i => (row i, i))).filter (fun p => decide (p.1 ≠ ⊥)))

/-- The order of `std::pair<ScoreFloatType, int>` on `(-score, index)` used by `std::partial_sort`
(evaluator.cpp:353-355): larger score first, then smaller index. -/
def pairLE (a b : S × Nat) : Bool :=
  decide (b.1 < a.1) || (decide (a.1 = b.1) && decide (a.2 ≤ b.2))

/-- The evaluated recommendation list (evaluator.cpp:350-362): the indices of the first
`min(cutoff, size)` pairs after `std::partial_sort`.  The order is total on the candidates, so the
first `k` elements are those of the fully sorted sequence. -/
def topCutoff (nItems : Nat) (rec : Option (List Nat)) (cutoff : Nat) (row : ScoreRow S) : List Nat :=
  (((candidates nItems rec row).mergeSort pairLE).take
    (min cutoff (candidates nItems rec row).length)).map Prod.snd

/-- The loop body of `get_metrics_local` for score row `u` (evaluator.cpp:312-364). -/
noncomputable def Core.evalRow (c : Core) (rows : List (ScoreRow S)) (cutoff offset : Nat)
    (recallWithCutoff : Bool) (u : Nat) (m : Metrics) : Metrics :=
  let gt := c.gtSet (u + offset)
  let m := m.incrementTotalUser
  if gt = ∅ then m
  else m.update (topCutoff c.nItems (c.recommendableFor (u + offset)) cutoff
    (rows.getD u (fun _ => ⊥))) gt recallWithCutoff

/-- The argument checks of `get_metrics` (evaluator.cpp:261-268 and 209). -/
def Core.checkArgs (c : Core) (nRows cutoff offset nThreads : Nat) : Except Err Unit :=
  if ¬ nThreads > 0 then .error .invalidArgument
  else if ¬ c.nUsers > offset then .error .invalidArgument
  else if ¬ offset + nRows ≤ c.nUsers then .error .invalidArgument
  else if ¬ cutoff > 0 then .error .invalidArgument
  else if ¬ cutoff ≤ c.nItems then .error .invalidArgument
  else .ok ()

/-- `EvaluatorCore::get_metrics` as it runs: `n_threads` workers with local `Metrics`, chunk 1,
interleaved by `sched` (evaluator.cpp:256-284, 291-367). -/
noncomputable def Core.getMetricsRegion (c : Core) (rows : List (ScoreRow S))
    (cutoff offset nThreads : Nat) (recallWithCutoff : Bool) (sched : List (Fin nThreads)) :
    Region nThreads Metrics Unit :=
  match c.checkArgs rows.length cutoff offset nThreads with
  | .error e => .error e
  | .ok () => .ok (WorkQueue.run rows.length 1
      (fun u l m => (c.evalRow rows cutoff offset recallWithCutoff u l, m))
      (WorkQueue.init Metrics.empty ()) sched)

/-- `for (auto &metric : workers) overall.merge(metric.get())` (evaluator.cpp:280-282). -/
noncomputable def mergeWorkers {T : Nat} (s : WorkQueue.State T Metrics Unit) : Metrics :=
  (List.finRange T).foldl (fun overall t => overall.merge (s.loc t)) Metrics.empty

/-- `get_metrics` as a function: the sequential evaluation.  `C03` proves that it is what every
finished parallel run returns. -/
noncomputable def Core.getMetrics (c : Core) (rows : List (ScoreRow S))
    (cutoff offset nThreads : Nat) (recallWithCutoff : Bool) : Except Err Metrics :=
  match c.checkArgs rows.length cutoff offset nThreads with
  | .error e => .error e
  | .ok () => .ok ((List.range rows.length).foldl
      (fun m u => c.evalRow rows cutoff offset recallWithCutoff u m) Metrics.empty)

end scores

/-! ## evaluate_list_vs_list -/

/-- Body of the worker loop of `evaluate_list_vs_list` (evaluator.cpp:414-422). -/
noncomputable def listRow (recs gts : List (List Nat)) (u : Nat) (m : Metrics) : Metrics :=
  (m.incrementTotalUser).update (recs.getD u []) (gts.getD u []).toFinset false

/-- Checks of `evaluate_list_vs_list` (evaluator.cpp:379-396). -/
def checkLists (recs gts : List (List Nat)) (nItems : Nat) : Except Err Unit :=
  if ¬ recs.length = gts.length then .error .invalidArgument
  else if ¬ recs.all (fun l => l.all (fun i => decide (i < nItems))) then .error .invalidArgument
  else if ¬ gts.all (fun l => l.all (fun i => decide (i < nItems))) then .error .invalidArgument
  else .ok ()

/-- `evaluate_list_vs_list` (evaluator.cpp:376-431) as a parallel region.  There is no check on
`n_threads`. -/
noncomputable def evaluateListRegion (recs gts : List (List Nat)) (nItems nThreads : Nat)
    (sched : List (Fin nThreads)) : Region nThreads Metrics Unit :=
  match checkLists recs gts nItems with
  | .error e => .error e
  | .ok () => .ok (WorkQueue.run recs.length 1 (fun u l m => (listRow recs gts u l, m))
      (WorkQueue.init Metrics.empty ()) sched)

/-- A recommendation list with repetitions can be longer than `n_items`.  A hit at a position
`≥ n_items` then reads `dcg_discount[i]` behind the end of that vector (evaluator.cpp:42-48, 144-149;
no check in 379-396).  That this is exactly when it happens is proved in C74. -/
def readsPastDiscounts (recs gts : List (List Nat)) (nItems : Nat) : Bool :=
  (recs.zip gts).any (fun p => (p.1.drop nItems).any (fun i => decide (i ∈ p.2)))

/-- A non-empty recommendation list with an empty ground truth makes `recall`, `ndcg` and `map` `0 / 0`
(evaluator.cpp:157-165 with `n_gt = 0`; no check in 379-396, and the worker loop 414-422 does not
skip such rows the way `get_metrics_local` does). -/
def dividesByZero (recs gts : List (List Nat)) : Bool :=
  (recs.zip gts).any (fun p => decide (p.1 ≠ []) && decide (p.2 = []))

/-- `evaluate_list_vs_list` for `n_threads ≥ 1`, sequentially; for `n_threads = 0` no worker exists
and the empty accumulator is returned (evaluator.cpp:397-430).  Where the code reads behind the end
of an array, or goes on with NaN, the model stops. -/
noncomputable def evaluateList (recs gts : List (List Nat)) (nItems nThreads : Nat) :
    Except Err Metrics :=
  match checkLists recs gts nItems with
  | .error e => .error e
  | .ok () =>
    if nThreads = 0 then .ok Metrics.empty
    else if readsPastDiscounts recs gts nItems then .error .outOfBounds
    else if dividesByZero recs gts then .error .nonFinite
    else .ok ((List.range recs.length).foldl (fun m u => listRow recs gts u m) Metrics.empty)

end Irspack.Evaluation
