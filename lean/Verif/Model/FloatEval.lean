import Verif.Model.Evaluator

/-!
# The C++ evaluator in floating-point arithmetic

`Model/Evaluator.lean` computes metrics in exact reals.  Here every arithmetic operation of
/repo/cpp_source/evaluator.cpp on `double` is followed by a rounding `fl`, in the order in which the code
performs them, worker by worker.  Counters (`size_t`, `int64_t`) and their conversion to `double` are
exact, as they are below 2^53.  Overflow and underflow are not modelled: the values lie between
`1 / (n_items * log2 n_items)` and the number of users.
-/

namespace Irspack.Evaluation.FloatEval

open Irspack Evaluation

/-- The arithmetic of `double` and the two library functions the evaluator calls
(evaluator.cpp:45, 104). -/
structure Arith where
  /-- rounding of the exact result of `+`, `*`, `/` -/
  fl : ℝ → ℝ
  /-- what `std::log2(n)` returns for an integer -/
  log2 : Nat → ℝ
  /-- what `std::log` returns -/
  log : ℝ → ℝ

/-- `result[i] = 1 / std::log2(2 + i)` (evaluator.cpp:42-48). -/
noncomputable def Arith.discount (A : Arith) (i : Nat) : ℝ := A.fl (1 / A.log2 (2 + i))

/-- `Metrics::merge` (evaluator.cpp:76-85). -/
noncomputable def mergeFl (A : Arith) (m other : Metrics) : Metrics where
  hit := A.fl (m.hit + other.hit)
  recall := A.fl (m.recall + other.recall)
  ndcg := A.fl (m.ndcg + other.ndcg)
  totalUser := m.totalUser + other.totalUser
  validUser := m.validUser + other.validUser
  itemCnt := fun i => m.itemCnt i + other.itemCnt i
  precision := A.fl (m.precision + other.precision)
  map := A.fl (m.map + other.map)

/-- One iteration of the loop in `Metrics::update` (evaluator.cpp:144-152). -/
noncomputable def updStepFl (A : Arith) (gt : Finset Nat) (a : UpdAcc) (rec : Nat) : UpdAcc :=
  let cnt := Function.update a.itemCnt rec (a.itemCnt rec + 1)
  if rec ∈ gt then
    { i := a.i + 1
      dcg := A.fl (a.dcg + A.discount a.i)
      cumHit := a.cumHit + 1
      averagePrecision := A.fl (a.averagePrecision +
        A.fl (((a.cumHit + 1 : Nat) : ℝ) / ((a.i : ℝ) + 1)))
      itemCnt := cnt }
  else
    { a with i := a.i + 1, itemCnt := cnt }

/-- `std::accumulate` over the first `n` discounts (evaluator.cpp:137-139). -/
noncomputable def idcgFl (A : Arith) (n : Nat) : ℝ :=
  (List.range n).foldl (fun s i => A.fl (s + A.discount i)) 0

/-- `Metrics::update` (evaluator.cpp:127-166). -/
noncomputable def updateFl (A : Arith) (m : Metrics) (recs : List Nat) (gt : Finset Nat)
    (recallWithCutoff : Bool) : Metrics :=
  let nGt := gt.card
  let nRec := recs.length
  let m := { m with validUser := m.validUser + 1 }
  if nRec = 0 then m
  else
    let idcg := idcgFl A (min nGt nRec)
    let a := recs.foldl (updStepFl A gt)
      { i := 0, dcg := 0, cumHit := 0, averagePrecision := 0, itemCnt := m.itemCnt }
    { m with
      itemCnt := a.itemCnt
      hit := if a.cumHit > 0 then A.fl (m.hit + 1) else m.hit
      precision := A.fl (m.precision + A.fl ((a.cumHit : ℝ) / (nRec : ℝ)))
      recall := A.fl (m.recall + A.fl ((a.cumHit : ℝ) /
        ((if recallWithCutoff then (if nGt > nRec then nRec else nGt) else nGt : Nat) : ℝ)))
      ndcg := A.fl (m.ndcg + A.fl (a.dcg / idcg))
      map := A.fl (m.map + A.fl (a.averagePrecision / (nGt : ℝ))) }

/-- One iteration over the sorted counts of `as_dict` (evaluator.cpp:96-105).  The factor of the Gini
sum is computed in integers. -/
noncomputable def divStepFl (A : Arith) (n : Nat) (total : ℝ) (a : DivAcc) (cnt : Nat) : DivAcc :=
  if cnt = 0 then { a with i := a.i + 1 }
  else
    let p := A.fl ((cnt : ℝ) / total)
    { i := a.i + 1
      appeared := A.fl (a.appeared + 1)
      entropy := A.fl (a.entropy + A.fl (-A.log p * p))
      gini := A.fl (a.gini + (((2 * (a.i : Int) - (n : Int) + 1) * (cnt : Int) : Int) : ℝ)) }

/-- `Metrics::as_dict` (evaluator.cpp:87-123). -/
noncomputable def asDictFl (A : Arith) (n : Nat) (m : Metrics) : MetricDict :=
  let counts := (List.range n).map m.itemCnt
  let total : ℝ := ((counts.sum : Nat) : ℝ)
  let sorted := counts.mergeSort (fun a b => decide (a ≤ b))
  let a := sorted.foldl (divStepFl A n total) { i := 0, appeared := 0, entropy := 0, gini := 0 }
  let gini := if total > 0 then A.fl (a.gini / A.fl ((n : ℝ) * total)) else a.gini
  let denominator : Nat := if m.validUser > 0 then m.validUser else 1
  { totalUser := m.totalUser
    validUser := m.validUser
    nItems := n
    hit := A.fl (m.hit / denominator)
    ndcg := A.fl (m.ndcg / denominator)
    recall := A.fl (m.recall / denominator)
    map := A.fl (m.map / denominator)
    precision := A.fl (m.precision / denominator)
    appearedItem := a.appeared
    entropy := a.entropy
    giniIndex := gini }

section scores
variable {S : Type} [LinearOrder S] [OrderBot S]

/-- The loop body of `get_metrics_local` for score row `u` (evaluator.cpp:312-364). -/
noncomputable def evalRowFl (A : Arith) (c : Core) (rows : List (ScoreRow S)) (cutoff offset : Nat)
    (recallWithCutoff : Bool) (u : Nat) (m : Metrics) : Metrics :=
  let gt := c.gtSet (u + offset)
  let m := m.incrementTotalUser
  if gt = ∅ then m
  else updateFl A m (topCutoff c.nItems (c.recommendableFor (u + offset)) cutoff
    (rows.getD u (fun _ => ⊥))) gt recallWithCutoff

/-- `EvaluatorCore::get_metrics` as it runs (evaluator.cpp:256-284, 291-367). -/
noncomputable def getMetricsRegionFl (A : Arith) (c : Core) (rows : List (ScoreRow S))
    (cutoff offset nThreads : Nat) (recallWithCutoff : Bool) (sched : List (Fin nThreads)) :
    Region nThreads Metrics Unit :=
  match c.checkArgs rows.length cutoff offset nThreads with
  | .error e => .error e
  | .ok () => .ok (WorkQueue.run rows.length 1
      (fun u l m => (evalRowFl A c rows cutoff offset recallWithCutoff u l, m))
      (WorkQueue.init Metrics.empty ()) sched)

end scores

/-- `for (auto &metric : workers) overall.merge(metric.get())` (evaluator.cpp:280-282). -/
noncomputable def mergeWorkersFl (A : Arith) {T : Nat} (s : WorkQueue.State T Metrics Unit) : Metrics :=
  (List.finRange T).foldl (fun overall t => mergeFl A overall (s.loc t)) Metrics.empty

/-- The batches of the Python evaluator: `metrics[i].merge(chunked_metric)`
(/repo/src/irspack/evaluation/evaluator.py:384-392, 431-439, 647-655). -/
noncomputable def mergeBatchesFl (A : Arith) (batches : List Metrics) : Metrics :=
  batches.foldl (mergeFl A) Metrics.empty

end Irspack.Evaluation.FloatEval
