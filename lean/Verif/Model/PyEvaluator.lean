import Verif.Model.Evaluator

/-!
# The Python evaluators (/repo/src/irspack/evaluation/evaluator.py)

`get_metrics` is the sequential function `Core.getMetrics`; C03 proves it to be what every parallel
run returns.  `range(a, b, 0)` raises `ValueError`; `mb_size` is a natural number.
Keys such as `"ndcg@10"` are modelled as pairs of metric and cutoff.
-/

namespace Irspack.Evaluation

open Irspack

section
variable {S : Type} [LinearOrder S] [OrderBot S]

/-- The non-zero pattern of a sparse mask, with its shape. -/
structure Mask where
  nRows : Nat
  nCols : Nat
  nz : Nat → Nat → Bool

/-- An object passed as a score block: is it a 2-D `ndarray`, how many columns has it, is its dtype
float32/float64, and its rows. -/
structure Chunk (S : Type) where
  isArray2d : Bool
  nCols : Nat
  dtypeOk : Bool
  rows : List (ScoreRow S)

/-- `Evaluator` attributes (evaluator.py:135-161). `n_cold_items` is not needed; for `target_metric` see `Model/Named.lean`. -/
structure Evaluator where
  core : Core
  nRecommendable : Nat
  offset : Nat
  nUsers : Nat
  nItems : Nat
  cutoff : Nat
  nThreads : Nat
  mbSize : Nat
  masked : Option Mask
  recallWithCutoff : Bool

/-- `recommendable_items_arg` (evaluator.py:116-132).  A sparse per-user matrix is given by its rows'
non-zero columns. -/
def recommendableArg (nRows : Nat) (recommendable : Option (List Nat))
    (perUser : Option (List (List Nat))) : Except Err (List (List Nat)) :=
  match recommendable with
  | some l => .ok [l]
  | none =>
    match perUser with
    | none => .ok []
    | some ls => if ls.length ≠ nRows then .error .valueError else .ok ls

/-- `Evaluator.__init__` (evaluator.py:98-161).  The ground truth is given by the stored columns of
its rows and its column count.  `n_threads` is the already resolved thread count (see C56); the
lookup of `target_metric` in its enum is in `Model/Named.lean`. -/
def Evaluator.make (gtRows : List (List Nat)) (nItems offset cutoff : Nat)
    (recommendable : Option (List Nat)) (perUser : Option (List (List Nat))) (masked : Option Mask)
    (nThreads : Nat) (recallWithCutoff : Bool) (mbSize : Nat) : Except Err Evaluator :=
  match recommendableArg gtRows.length recommendable perUser with
  | .error e => .error e
  | .ok arg =>
    match Core.make gtRows nItems arg with
    | .error e => .error e
    | .ok core =>
      let nRec := match arg with
        | [] => nItems
        | [l] => l.length
        | ls => ls.flatten.toFinset.card
      match masked with
      | some msk =>
        if msk.nRows ≠ gtRows.length ∨ msk.nCols ≠ nItems then .error .valueError
        else .ok ⟨core, nRec, offset, gtRows.length, nItems, cutoff, nThreads, mbSize, some msk,
          recallWithCutoff⟩
      | none =>
        .ok ⟨core, nRec, offset, gtRows.length, nItems, cutoff, nThreads, mbSize, none,
          recallWithCutoff⟩

/-- `scores[mask[start:...].nonzero()] = -np.inf` on a block whose first row is row `start` of the
mask (evaluator.py:387, 424-430, 644-645). -/
def applyMask (nz : Nat → Nat → Bool) (start : Nat) (rows : List (ScoreRow S)) : List (ScoreRow S) :=
  rows.mapIdx (fun k row i => if nz (start + k) i then ⊥ else row i)

/-- `if mask is not None: scores[mask[...].nonzero()] = -np.inf` (evaluator.py:385-387). -/
def maskRows (mask : Option Mask) (start : Nat) (rows : List (ScoreRow S)) : List (ScoreRow S) :=
  match mask with
  | some msk => applyMask msk.nz start rows
  | none => rows

/-- The inner loop over cutoffs with `metrics[i].merge(...)` (evaluator.py:388-389, 431-439). -/
noncomputable def Evaluator.evalBlock (ev : Evaluator) (rows : List (ScoreRow S)) (start : Nat) :
    List (Nat × Metrics) → Except Err (List (Nat × Metrics))
  | [] => .ok []
  | (cutoff, m) :: rest =>
    match ev.core.getMetrics rows cutoff start ev.nThreads ev.recallWithCutoff with
    | .error e => .error e
    | .ok x =>
      match ev.evalBlock rows start rest with
      | .error e => .error e
      | .ok rest' => .ok ((cutoff, m.merge x) :: rest')

/-- The dictionary returned to the user: the C++ entries and `catalog_coverage`
(`none` stands for NaN). -/
@[ext] structure PyDict where
  base : MetricDict
  coverage : Option ℝ

/-- `_metrics_as_dict` (evaluator.py:326-334). -/
noncomputable def Evaluator.metricsAsDict (ev : Evaluator) (m : Metrics) : PyDict :=
  let d := m.asDict ev.nItems
  { base := d
    coverage := if ev.nRecommendable ≠ 0 then some (d.appearedItem / ev.nRecommendable) else none }

/-- The loop of `_get_scores_from_score_chunks_as_list` (evaluator.py:365-390). -/
noncomputable def Evaluator.chunkLoop (ev : Evaluator) (mask : Option Mask) :
    List (Chunk S) → Nat → List (Nat × Metrics) → Except Err (Nat × List (Nat × Metrics))
  | [], start, ms => .ok (start, ms)
  | ch :: rest, start, ms =>
    if ¬ ch.isArray2d then .error .valueError
    else if ch.nCols ≠ ev.nItems then .error .valueError
    else if ¬ ch.dtypeOk then .error .valueError
    else if start + ch.rows.length > ev.nUsers then .error .valueError
    else if ch.rows.length = 0 then ev.chunkLoop mask rest start ms
    else
      match ev.evalBlock (maskRows mask start ch.rows) start ms with
      | .error e => .error e
      | .ok ms' => ev.chunkLoop mask rest (start + ch.rows.length) ms'

/-- `_get_scores_from_score_chunks_as_list` (evaluator.py:357-398) with the mask that
`_get_score_matrix_mask` returns. -/
noncomputable def Evaluator.scoresFromChunksWith (ev : Evaluator) (mask : Option Mask)
    (chunks : List (Chunk S)) (cutoffs : List Nat) : Except Err (List PyDict) :=
  match ev.chunkLoop mask chunks 0 (cutoffs.map (fun c => (c, Metrics.empty))) with
  | .error e => .error e
  | .ok (start, ms) =>
    if start ≠ ev.nUsers then .error .valueError
    else .ok (ms.map (fun p => ev.metricsAsDict p.2))

/-- …for the plain `Evaluator`, whose mask is `masked_interactions` (evaluator.py:336-337). -/
noncomputable def Evaluator.scoresFromChunks (ev : Evaluator) (chunks : List (Chunk S))
    (cutoffs : List Nat) : Except Err (List PyDict) :=
  ev.scoresFromChunksWith ev.masked chunks cutoffs

/-- `range(start, stop, mb)` for `mb ≥ 1`. -/
def pyRange (start stop mb : Nat) : List Nat :=
  (List.range ((stop - start + (mb - 1)) / mb)).map (fun k => start + k * mb)

/-- `_get_scores_from_score_matrix_as_list` (evaluator.py:339-355); `m` is the score matrix as one
chunk. -/
noncomputable def Evaluator.scoresFromMatrixWith (ev : Evaluator) (mask : Option Mask)
    (m : Chunk S) (cutoffs : List Nat) : Except Err (List PyDict) :=
  if ¬ m.isArray2d ∨ m.rows.length ≠ ev.nUsers ∨ m.nCols ≠ ev.nItems then .error .valueError
  else if ¬ m.dtypeOk then .error .valueError
  else if ev.mbSize = 0 then .error .valueError
  else ev.scoresFromChunksWith mask
    ((pyRange 0 ev.nUsers ev.mbSize).map (fun s =>
      ({ m with rows := (m.rows.drop s).take ev.mbSize } : Chunk S))) cutoffs

/-- …for the plain `Evaluator`. -/
noncomputable def Evaluator.scoresFromMatrix (ev : Evaluator) (m : Chunk S) (cutoffs : List Nat) :
    Except Err (List PyDict) :=
  ev.scoresFromMatrixWith ev.masked m cutoffs

/-- What the evaluator uses of a recommender (base.py:284-306): row blocks or rows by index, and the
training matrix's non-zero pattern. -/
structure Recommender (S : Type) where
  nUsers : Nat
  nItems : Nat
  getScoreBlock : Nat → Nat → Except Err (List (ScoreRow S))
  getScore : List Nat → Except Err (List (ScoreRow S))
  trainNz : Nat → Nat → Bool

/-- The scores of one block: try `get_score_block`, on `NotImplementedError` use `get_score`
(evaluator.py:417-422). -/
def Recommender.block (r : Recommender S) (a b : Nat) : Except Err (List (ScoreRow S)) :=
  match r.getScoreBlock a b with
  | .ok rows => .ok rows
  | .error .notImplemented => r.getScore (List.range' a (b - a))
  | .error e => .error e

/-- Without `masked_interactions` the model's own training interactions are masked, otherwise the
given ones (evaluator.py:423-430). -/
def Evaluator.maskModelRows (ev : Evaluator) (r : Recommender S) (a : Nat)
    (rows : List (ScoreRow S)) : List (ScoreRow S) :=
  match ev.masked with
  | none => applyMask r.trainNz a rows
  | some msk => applyMask msk.nz (a - ev.offset) rows

/-- The loop of `_get_scores_as_list` (evaluator.py:415-439) over the block starts. -/
noncomputable def Evaluator.modelLoop (ev : Evaluator) (r : Recommender S) :
    List Nat → List (Nat × Metrics) → Except Err (List (Nat × Metrics))
  | [], ms => .ok ms
  | a :: rest, ms =>
    let b := min (a + ev.mbSize) (ev.offset + ev.nUsers)
    match r.block a b with
    | .error e => .error e
    | .ok rows =>
      match ev.evalBlock (ev.maskModelRows r a rows) (a - ev.offset) ms with
      | .error e => .error e
      | .ok ms' => ev.modelLoop r rest ms'

/-- `_get_scores_as_list` (evaluator.py:400-441). -/
noncomputable def Evaluator.scoresOfModel (ev : Evaluator) (r : Recommender S) (cutoffs : List Nat) :
    Except Err (List PyDict) :=
  if ev.offset + ev.nUsers > r.nUsers then .error .valueError
  else if ev.nItems ≠ r.nItems then .error .valueError
  else if ev.mbSize = 0 then .error .valueError
  else
    match ev.modelLoop r (pyRange ev.offset (ev.offset + ev.nUsers) ev.mbSize)
        (cutoffs.map (fun c => (c, Metrics.empty))) with
    | .error e => .error e
    | .ok ms => .ok (ms.map (fun p => ev.metricsAsDict p.2))

/-- `get_score` (evaluator.py:196-205): `[0]` on the list for `[self.cutoff]`. -/
noncomputable def Evaluator.getScore (ev : Evaluator) (r : Recommender S) : Except Err PyDict :=
  match ev.scoresOfModel r [ev.cutoff] with
  | .error e => .error e
  | .ok [] => .error .indexError
  | .ok (d :: _) => .ok d

/-- The loop `for cutoff, score in zip(cutoffs, scores): result[f"{metric}@{cutoff}"] = ...`
(evaluator.py:221-226, 257-261, 319-323): later entries overwrite earlier ones. -/
def collect (cutoffs : List Nat) (ds : List PyDict) : Nat → Option PyDict :=
  (cutoffs.zip ds).foldl (fun acc p => Function.update acc p.1 (some p.2)) (fun _ => none)

/-- `get_scores` (evaluator.py:207-227): the value under `"metric@c"` is the metric's entry of the
dictionary stored for `c`. -/
noncomputable def Evaluator.getScores (ev : Evaluator) (r : Recommender S) (cutoffs : List Nat) :
    Except Err (Nat → Option PyDict) :=
  match ev.scoresOfModel r cutoffs with
  | .error e => .error e
  | .ok ds => .ok (collect cutoffs ds)

/-! ## EvaluatorWithColdUser -/

/-- `EvaluatorWithColdUser` (evaluator.py:500-579): the base evaluator (with `offset = 0`), the
number of warm and cold items and `_input_interaction_mask`.  `input_interaction` enters the model
only through its non-zero pattern and through the recommender's answers. -/
structure ColdEvaluator where
  base : Evaluator
  nWarm : Nat
  nCold : Nat
  hasColdFeatures : Bool
  inputMask : Mask

/-- `hstack([m, zeros(rows, n_cold)])` (evaluator.py:540-549, 568-577). -/
def Mask.padCols (m : Mask) (nCold : Nat) : Mask where
  nRows := m.nRows
  nCols := m.nCols + nCold
  nz := fun u i => decide (i < m.nCols) && m.nz u i

/-- `EvaluatorWithColdUser.__init__` (evaluator.py:500-579).  `nCold = none` means that
`cold_item_features` is `None`. -/
def ColdEvaluator.make (input : Mask) (gtRows : List (List Nat)) (nItems cutoff : Nat)
    (recommendable : Option (List Nat)) (perUser : Option (List (List Nat))) (masked : Option Mask)
    (nThreads : Nat) (recallWithCutoff : Bool) (mbSize : Nat) (nCold : Option Nat) :
    Except Err ColdEvaluator :=
  if input.nRows ≠ gtRows.length then .error .valueError
  else if nCold.isSome ∧ nItems ≠ input.nCols + nCold.getD 0 then .error .valueError
  else
    let masked' := match nCold, masked with
      | some k, some msk =>
        if msk.nRows = input.nRows ∧ msk.nCols = input.nCols then some (msk.padCols k) else some msk
      | _, msk => msk
    match Evaluator.make gtRows nItems 0 cutoff recommendable perUser masked' nThreads
        recallWithCutoff mbSize with
    | .error e => .error e
    | .ok ev => .ok
        { base := ev
          nWarm := input.nCols
          nCold := nCold.getD 0
          hasColdFeatures := nCold.isSome
          inputMask := if nCold.getD 0 ≠ 0 then input.padCols (nCold.getD 0) else input }

/-- `_get_score_matrix_mask` (evaluator.py:581-584). -/
def ColdEvaluator.mask (ev : ColdEvaluator) : Mask :=
  match ev.base.masked with
  | none => ev.inputMask
  | some msk => msk

/-- What the cold-user evaluator uses of a recommender, for the fixed `input_interaction`:
`get_score_cold_user(input[a:b])` and, if it can be created, the scorer returned by
`_create_cold_user_with_item_features_scorer`.  Answers carry their number of columns. -/
structure ColdRecommender (S : Type) where
  nItems : Nat
  coldUser : Nat → Nat → Except Err (Nat × List (ScoreRow S))
  featureScorer : Except Err (Nat → Nat → Except Err (Nat × List (ScoreRow S)))

/-- Appending `n_cold` columns of `-inf` to rows that have `n_warm` columns
(evaluator.py:629-640). -/
def padRow (nWarm : Nat) (row : ScoreRow S) : ScoreRow S := fun i => if i < nWarm then row i else ⊥

/-- Scores of one chunk and the scorer to use from now on (evaluator.py:619-628). -/
def ColdRecommender.chunk (r : ColdRecommender S)
    (scorer : Option (Nat → Nat → Except Err (Nat × List (ScoreRow S)))) (a b : Nat) :
    Except Err ((Nat × List (ScoreRow S)) ×
      Option (Nat → Nat → Except Err (Nat × List (ScoreRow S)))) :=
  match scorer with
  | some f =>
    match f a b with
    | .ok x => .ok (x, some f)
    | .error .notImplemented =>
      match r.coldUser a b with
      | .ok x => .ok (x, none)
      | .error e => .error e
    | .error e => .error e
  | none =>
    match r.coldUser a b with
    | .ok x => .ok (x, none)
    | .error e => .error e

/-- The loop of `_get_scores_as_list` (evaluator.py:616-655).  The answer's columns are assumed to be
`n_warm` or `n_items`; the C++ side does not check this. -/
noncomputable def ColdEvaluator.loop (ev : ColdEvaluator) (r : ColdRecommender S) :
    List Nat → Option (Nat → Nat → Except Err (Nat × List (ScoreRow S))) →
    List (Nat × Metrics) → Except Err (List (Nat × Metrics))
  | [], _, ms => .ok ms
  | a :: rest, scorer, ms =>
    let b := min (a + ev.base.mbSize) (ev.base.offset + ev.base.nUsers)
    match r.chunk scorer a b with
    | .error e => .error e
    | .ok ((cols, rows), scorer') =>
      let rows := if cols = ev.nWarm ∧ ev.nCold ≠ 0 then rows.map (padRow ev.nWarm) else rows
      match ev.base.evalBlock (applyMask ev.mask.nz a rows) a ms with
      | .error e => .error e
      | .ok ms' => ev.loop r rest scorer' ms'

/-- The scorer tried first (evaluator.py:606-615). -/
def ColdEvaluator.firstScorer (ev : ColdEvaluator) (r : ColdRecommender S) :
    Except Err (Option (Nat → Nat → Except Err (Nat × List (ScoreRow S)))) :=
  if ev.hasColdFeatures then
    match r.featureScorer with
    | .ok f => .ok (some f)
    | .error .notImplemented => .ok none
    | .error e => .error e
  else .ok none

/-- `EvaluatorWithColdUser._get_scores_as_list` (evaluator.py:586-657). -/
noncomputable def ColdEvaluator.scoresOfModel (ev : ColdEvaluator) (r : ColdRecommender S)
    (cutoffs : List Nat) : Except Err (List PyDict) :=
  if r.nItems ≠ ev.nWarm then .error .valueError
  else if ev.base.mbSize = 0 then .error .valueError
  else
    match ev.firstScorer r with
    | .error e => .error e
    | .ok scorer =>
      match ev.loop r (pyRange ev.base.offset (ev.base.offset + ev.base.nUsers) ev.base.mbSize)
          scorer (cutoffs.map (fun c => (c, Metrics.empty))) with
      | .error e => .error e
      | .ok ms => .ok (ms.map (fun p => ev.base.metricsAsDict p.2))

/-- Score-matrix evaluation of the cold-user evaluator: inherited, with its own mask. -/
noncomputable def ColdEvaluator.scoresFromMatrix (ev : ColdEvaluator) (m : Chunk S)
    (cutoffs : List Nat) : Except Err (List PyDict) :=
  ev.base.scoresFromMatrixWith (some ev.mask) m cutoffs

end

end Irspack.Evaluation
