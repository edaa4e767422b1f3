import Verif.Model.PyEvaluator
import Verif.Model.Retrieval

/-!
# Arrays in memory: who may see the evaluator's masking

The models in `Model/PyEvaluator.lean` and `Model/Retrieval.lean` treat score arrays as values.
Here numpy arrays are views into mutable buffers, so that an in-place assignment such as
`scores[mask.nonzero()] = -np.inf` is visible through every other array on the same buffer.
An address inside a buffer is a pair of numbers; this is only a way of naming addresses.
-/

namespace Irspack.Memory

open Irspack Irspack.Evaluation Irspack.Retrieval

section
variable {S : Type} [LinearOrder S] [OrderBot S]

/-- The contents of all buffers. -/
abbrev Store (S : Type) := Nat → Nat × Nat → S

/-- A 2-D `ndarray`: its buffer, its shape and the address of each entry.  Slices, transposes and
broadcasts are other views on the same buffer. -/
structure View where
  buf : Nat
  rows : Nat
  cols : Nat
  pos : Nat → Nat → Nat × Nat

/-- The values of the entries now. -/
def View.read (st : Store S) (v : View) : List (ScoreRow S) :=
  (List.range v.rows).map (fun i j => st v.buf (v.pos i j))

/-- The same as lists. -/
def View.readLists (st : Store S) (v : View) : List (List S) :=
  (List.range v.rows).map (fun i => (List.range v.cols).map (fun j => st v.buf (v.pos i j)))

/-- `a[idx] = -np.inf`: writes into the buffer, at the addresses of the selected entries. -/
def View.write (st : Store S) (v : View) (sel : Nat → Nat → Bool) : Store S := fun b x =>
  if b = v.buf ∧ ((List.range v.rows).any fun i => (List.range v.cols).any fun j =>
      decide (v.pos i j = x) && sel i j) = true
  then ⊥ else st b x

/-- `a[lo:hi]`: a view on the same buffer. -/
def View.slice (v : View) (lo hi : Nat) : View where
  buf := v.buf
  rows := min hi v.rows - lo
  cols := v.cols
  pos := fun i j => v.pos (lo + i) j

/-- Memory as seen by the evaluator: the buffers of the caller and those it allocated itself, which
the caller has no reference to. -/
structure Mem (S : Type) where
  caller : Store S
  own : Store S
  fresh : Nat

/-- `score_chunk.copy(order="C")` (evaluator.py:384) of an array of the caller. -/
def Mem.copy (m : Mem S) (v : View) : Mem S × View :=
  ({ m with own := Function.update m.own m.fresh (fun x => m.caller v.buf (v.pos x.1 x.2))
            fresh := m.fresh + 1 },
   { buf := m.fresh, rows := v.rows, cols := v.cols, pos := Prod.mk })

/-- `if mask is not None: score_chunk[mask[start:end].nonzero()] = -np.inf` (evaluator.py:385-386) on
an array the evaluator owns. -/
def Mem.maskOwn (m : Mem S) (v : View) (mask : Option Mask) (start : Nat) : Mem S :=
  match mask with
  | some msk => { m with own := v.write m.own (fun i j => msk.nz (start + i) j) }
  | none => m

/-- What the iterable yields: something else than a 2-D `ndarray`, or an array and whether its dtype
is float32/float64. -/
inductive Obj where
  | other
  | array (v : View) (dtypeOk : Bool)

/-- One `next()` of the caller's iterable: it may change the caller's buffers in any way (for
instance refill the buffer it yielded before) and then yields an object or raises. -/
abbrev Step (S : Type) := Store S → Store S × Except Err Obj

/-- The loop of `_get_scores_from_score_chunks_as_list` (evaluator.py:365-390) in memory. -/
noncomputable def chunkLoop (ev : Evaluator) (mask : Option Mask) :
    List (Step S) → Mem S → Nat → List (Nat × Metrics) →
    Mem S × Except Err (Nat × List (Nat × Metrics))
  | [], m, start, ms => (m, .ok (start, ms))
  | g :: rest, m, start, ms =>
    let out := g m.caller
    let m := { m with caller := out.1 }
    match out.2 with
    | .error e => (m, .error e)
    | .ok .other => (m, .error .valueError)
    | .ok (.array v dtypeOk) =>
      if v.cols ≠ ev.nItems then (m, .error .valueError)
      else if ¬ dtypeOk then (m, .error .valueError)
      else if start + v.rows > ev.nUsers then (m, .error .valueError)
      else if v.rows = 0 then chunkLoop ev mask rest m start ms
      else
        let c := m.copy v
        let m := c.1.maskOwn c.2 mask start
        match ev.evalBlock (c.2.read m.own) start ms with
        | .error e => (m, .error e)
        | .ok ms' => chunkLoop ev mask rest m (start + v.rows) ms'

/-- `_get_scores_from_score_chunks_as_list` (evaluator.py:357-398) in memory. -/
noncomputable def scoresFromChunks (ev : Evaluator) (mask : Option Mask) (gens : List (Step S))
    (m : Mem S) (cutoffs : List Nat) : Mem S × Except Err (List PyDict) :=
  let out := chunkLoop ev mask gens m 0 (cutoffs.map (fun c => (c, Metrics.empty)))
  match out.2 with
  | .error e => (out.1, .error e)
  | .ok (start, ms) =>
    if start ≠ ev.nUsers then (out.1, .error .valueError)
    else (out.1, .ok (ms.map (fun p => ev.metricsAsDict p.2)))

/-- `_get_scores_from_score_matrix_as_list` (evaluator.py:339-355): the blocks are slices of the
caller's array. -/
noncomputable def scoresFromMatrix (ev : Evaluator) (mask : Option Mask) (v : View) (dtypeOk : Bool)
    (m : Mem S) (cutoffs : List Nat) : Mem S × Except Err (List PyDict) :=
  if v.rows ≠ ev.nUsers ∨ v.cols ≠ ev.nItems then (m, .error .valueError)
  else if ¬ dtypeOk then (m, .error .valueError)
  else if ev.mbSize = 0 then (m, .error .valueError)
  else scoresFromChunks ev mask
    ((pyRange 0 ev.nUsers ev.mbSize).map (fun s =>
      (fun st : Store S => (st, .ok (.array (v.slice s (s + ev.mbSize)) dtypeOk))))) m cutoffs

/-! ## Evaluating a model -/

/-- A recommender whose answers are arrays in memory.  The methods may change the memory; the array
they return may be a new one or one the model still holds. -/
structure Model (S : Type) where
  nUsers : Nat
  nItems : Nat
  getScoreBlock : Nat → Nat → Store S → Store S × Except Err View
  getScore : List Nat → Store S → Store S × Except Err View
  trainNz : Nat → Nat → Bool

/-- The scores of one block (evaluator.py:417-422). -/
def Model.block (r : Model S) (a b : Nat) (st : Store S) : Store S × Except Err View :=
  let out := r.getScoreBlock a b st
  match out.2 with
  | .ok v => (out.1, .ok v)
  | .error .notImplemented => r.getScore (List.range' a (b - a)) out.1
  | .error e => (out.1, .error e)

/-- `scores[mask.nonzero()] = -np.inf` on the array the model returned (evaluator.py:423-430): no
copy is taken. -/
def maskModel (ev : Evaluator) (r : Model S) (a : Nat) (v : View) (st : Store S) : Store S :=
  match ev.masked with
  | none => v.write st (fun i j => r.trainNz (a + i) j)
  | some msk => v.write st (fun i j => msk.nz (a - ev.offset + i) j)

/-- The loop of `_get_scores_as_list` (evaluator.py:415-439) in memory. -/
noncomputable def modelLoop (ev : Evaluator) (r : Model S) :
    List Nat → Store S → List (Nat × Metrics) → Store S × Except Err (List (Nat × Metrics))
  | [], st, ms => (st, .ok ms)
  | a :: rest, st, ms =>
    let b := min (a + ev.mbSize) (ev.offset + ev.nUsers)
    let out := r.block a b st
    match out.2 with
    | .error e => (out.1, .error e)
    | .ok v =>
      let st := maskModel ev r a v out.1
      match ev.evalBlock (v.read st) (a - ev.offset) ms with
      | .error e => (st, .error e)
      | .ok ms' => modelLoop ev r rest st ms'

/-- `_get_scores_as_list` (evaluator.py:400-441) in memory. -/
noncomputable def scoresOfModel (ev : Evaluator) (r : Model S) (st : Store S) (cutoffs : List Nat) :
    Store S × Except Err (List PyDict) :=
  if ev.offset + ev.nUsers > r.nUsers then (st, .error .valueError)
  else if ev.nItems ≠ r.nItems then (st, .error .valueError)
  else if ev.mbSize = 0 then (st, .error .valueError)
  else
    let out := modelLoop ev r (pyRange ev.offset (ev.offset + ev.nUsers) ev.mbSize) st
      (cutoffs.map (fun c => (c, Metrics.empty)))
    match out.2 with
    | .error e => (out.1, .error e)
    | .ok ms => (out.1, .ok (ms.map (fun p => ev.metricsAsDict p.2)))

/-! ## Retrieval -/

/-- The memory after the loop `score[u, forbidden] = -np.inf` (id_mapping.py:304-308). -/
def blankForbidden {I : Type} [DecidableEq I] (m : ItemIDMapper I) (v : View) (st : Store S)
    (forbidden : Option (List (List I))) : Store S :=
  match forbidden with
  | none => st
  | some fs => v.write st (fun u j => decide (j ∈ m.toIndexList (fs.getD u [])))

/-- `score_to_recommended_items_batch` (id_mapping.py:258-324) on an array of the caller. -/
def scoreToItemsBatch {I F : Type} [DecidableEq I] [LinearOrder F] [OrderBot F] (m : ItemIDMapper I)
    (psort : Nat → List (Nat × F) → List (Nat × F)) (cast : S → F) (v : View) (st : Store S)
    (cutoff : Nat) (allowed : Option (List I)) (perUser : Option (List (List I)))
    (forbidden : Option (List (List I))) (nThreads : Nat) :
    Store S × Except Err (List (List (I × F))) :=
  if v.cols ≠ m.itemIds.length then (st, .error .valueError)
  else if ∃ fs, forbidden = some fs ∧ fs.length ≠ v.rows then (st, .error .assertionError)
  else if ∃ ls, perUser = some ls ∧ ls.length ≠ v.rows then (st, .error .assertionError)
  else
    let st := blankForbidden m v st forbidden
    match retrieve psort cast ⊥ v.cols (v.readLists st) (m.allowedIndices allowed perUser)
        cutoff nThreads with
    | .error e => (st, .error e)
    | .ok raw => (st, .ok (raw.map m.toIds))

end
end Irspack.Memory
