import Verif.Model.Memory

/-!
# The cold-user evaluator in memory

`EvaluatorWithColdUser._get_scores_as_list` (evaluator.py:586-657) with arrays as views into mutable
buffers, see `Model/Memory.lean`.
-/

namespace Irspack.Memory

open Irspack Irspack.Evaluation

section
variable {S : Type} [LinearOrder S] [OrderBot S]

/-- A call to the caller's code that answers with an array. -/
abbrev Call (S : Type) := Store S → Store S × Except Err View

/-- A recommender for the cold-user evaluator and a fixed `input_interaction`, with arrays in memory:
`get_score_cold_user(input[a:b])` and `_create_cold_user_with_item_features_scorer`. -/
structure ColdModel (S : Type) where
  nItems : Nat
  coldUser : Nat → Nat → Call S
  featureScorer : Store S → Store S × Except Err (Nat → Nat → Call S)

/-- The array of one chunk and the scorer to use from now on (evaluator.py:619-628). -/
def ColdModel.chunk (r : ColdModel S) (scorer : Option (Nat → Nat → Call S)) (a b : Nat) (st : Store S) :
    Store S × Except Err (View × Option (Nat → Nat → Call S)) :=
  match scorer with
  | some f =>
    let out := f a b st
    match out.2 with
    | .ok v => (out.1, .ok (v, some f))
    | .error .notImplemented =>
      let out' := r.coldUser a b out.1
      (out'.1, out'.2.map (fun v => (v, none)))
    | .error e => (out.1, .error e)
  | none =>
    let out := r.coldUser a b st
    (out.1, out.2.map (fun v => (v, none)))

/-- `np.concatenate([scores, np.full(…, -np.inf)], axis=1)` (evaluator.py:630-640): a new array of the
evaluator. -/
def Mem.pad (m : Mem S) (v : View) (nCold : Nat) : Mem S × View :=
  ({ m with own := Function.update m.own m.fresh
              (fun x => if x.2 < v.cols then m.caller v.buf (v.pos x.1 x.2) else ⊥)
            fresh := m.fresh + 1 },
   { buf := m.fresh, rows := v.rows, cols := v.cols + nCold, pos := Prod.mk })

/-- Masking one chunk (evaluator.py:629-644): in a new array if columns had to be appended, otherwise in
the array the model returned.  Gives the memory and the rows to evaluate. -/
def coldMasked (ev : ColdEvaluator) (a : Nat) (v : View) (m : Mem S) : Mem S × List (ScoreRow S) :=
  if v.cols = ev.nWarm ∧ ev.nCold ≠ 0 then
    let c := m.pad v ev.nCold
    let own := c.2.write c.1.own (fun i j => ev.mask.nz (a + i) j)
    ({ c.1 with own := own }, c.2.read own)
  else
    let st := v.write m.caller (fun i j => ev.mask.nz (a + i) j)
    ({ m with caller := st }, v.read st)

/-- The loop of `_get_scores_as_list` (evaluator.py:616-655) in memory. -/
noncomputable def coldLoop (ev : ColdEvaluator) (r : ColdModel S) :
    List Nat → Option (Nat → Nat → Call S) → Mem S → List (Nat × Metrics) →
    Mem S × Except Err (List (Nat × Metrics))
  | [], _, m, ms => (m, .ok ms)
  | a :: rest, scorer, m, ms =>
    let b := min (a + ev.base.mbSize) (ev.base.offset + ev.base.nUsers)
    let out := r.chunk scorer a b m.caller
    let m := { m with caller := out.1 }
    match out.2 with
    | .error e => (m, .error e)
    | .ok (v, scorer') =>
      let c := coldMasked ev a v m
      match ev.base.evalBlock c.2 a ms with
      | .error e => (c.1, .error e)
      | .ok ms' => coldLoop ev r rest scorer' c.1 ms'

/-- The scorer tried first (evaluator.py:606-615). -/
def coldFirst (ev : ColdEvaluator) (r : ColdModel S) (st : Store S) :
    Store S × Except Err (Option (Nat → Nat → Call S)) :=
  if ev.hasColdFeatures then
    let out := r.featureScorer st
    match out.2 with
    | .ok f => (out.1, .ok (some f))
    | .error .notImplemented => (out.1, .ok none)
    | .error e => (out.1, .error e)
  else (st, .ok none)

/-- `EvaluatorWithColdUser._get_scores_as_list` (evaluator.py:586-657) in memory. -/
noncomputable def coldScoresOfModel (ev : ColdEvaluator) (r : ColdModel S) (m : Mem S)
    (cutoffs : List Nat) : Mem S × Except Err (List PyDict) :=
  if r.nItems ≠ ev.nWarm then (m, .error .valueError)
  else if ev.base.mbSize = 0 then (m, .error .valueError)
  else
    let first := coldFirst ev r m.caller
    let m := { m with caller := first.1 }
    match first.2 with
    | .error e => (m, .error e)
    | .ok scorer =>
      let out := coldLoop ev r
        (pyRange ev.base.offset (ev.base.offset + ev.base.nUsers) ev.base.mbSize) scorer m
        (cutoffs.map (fun c => (c, Metrics.empty)))
      match out.2 with
      | .error e => (out.1, .error e)
      | .ok ms => (out.1, .ok (ms.map (fun p => ev.base.metricsAsDict p.2)))

end
end Irspack.Memory
