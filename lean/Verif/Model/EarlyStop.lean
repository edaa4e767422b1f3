import Mathlib.Order.Defs.LinearOrder
import Mathlib.Order.BoundedOrder.Basic
import Verif.Model.Basic

/-!
# Early stopping (/repo/src/irspack/recommenders/base_earlystop.py)

A trainer is an arbitrary object with a state `σ` and a saved form `β`.  Random numbers and thread
schedules enter through the number of the epoch: `runEpoch k` and the evaluator at epoch `k` are
arbitrary functions for each `k`.

Scores are `Option S`: `none` is NaN, `⊥` is `-inf`.  The progress bar is not modelled.
-/

namespace Irspack.EarlyStop

/-- The operations of a `TrainerBase` together with `_create_trainer`
(base_earlystop.py:16-45, 76-78).  `runEpoch k` is the call for the epoch with index `k`. -/
structure TrainerOps (σ β : Type) where
  create : Except Err σ
  runEpoch : Nat → σ → Except Err σ
  save : σ → β
  load : β → σ → σ

/-- The attributes of a `BaseRecommenderWithEarlyStopping` that matter here
(base_earlystop.py:71-74, base.py:105): `learntEpochs` is `learnt_config["train_epochs"]`. -/
structure Rec (σ β : Type) where
  trainEpochs : Nat
  trainer : Option σ
  bestState : Option β
  learntEpochs : Option Nat
  deriving DecidableEq

/-- `__init__` (base_earlystop.py:64-74) -/
def Rec.new {σ β : Type} (trainEpochs : Nat) : Rec σ β := ⟨trainEpochs, none, none, none⟩

section
variable {σ β S : Type}

/-- `start_learning` (base_earlystop.py:80-81) -/
def Rec.startLearning (T : TrainerOps σ β) (r : Rec σ β) : Except Err (Rec σ β) :=
  match T.create with
  | .error e => .error e
  | .ok s => .ok { r with trainer := some s }

/-- `run_epoch` (base_earlystop.py:83-86) -/
def Rec.runEpoch (T : TrainerOps σ β) (k : Nat) (r : Rec σ β) : Except Err (Rec σ β) :=
  match r.trainer with
  | none => .error .runtimeError
  | some s =>
    match T.runEpoch k s with
    | .error e => .error e
    | .ok s' => .ok { r with trainer := some s' }

/-- `save_state` (base_earlystop.py:88-93) -/
def Rec.saveState (T : TrainerOps σ β) (r : Rec σ β) : Except Err (Rec σ β) :=
  match r.trainer with
  | none => .error .runtimeError
  | some s => .ok { r with bestState := some (T.save s) }

/-- `load_state` (base_earlystop.py:95-101) -/
def Rec.loadState (T : TrainerOps σ β) (r : Rec σ β) : Except Err (Rec σ β) :=
  match r.trainer, r.bestState with
  | none, _ => .error .runtimeError
  | some _, none => .error .runtimeError
  | some s, some b => .ok { r with trainer := some (T.load b s) }

/-- What can be seen from outside while training runs: calls of the trainer's `run_epoch`, of the
evaluator (with the score it returned) and of `trial.report(value, step)`. -/
inductive Event (S : Type) where
  | epoch (k : Nat)
  | validate (k : Nat) (score : Option S)
  | report (value : Option S) (step : Nat)
  deriving DecidableEq

/-! ### Reading such a record -/

/-- indices of the epochs that were run -/
def epochsOf (log : List (Event S)) : List Nat :=
  log.filterMap (fun e => match e with | .epoch k => some k | _ => none)

/-- the validations performed: index of the epoch and score -/
def validationsOf (log : List (Event S)) : List (Nat × Option S) :=
  log.filterMap (fun e => match e with | .validate k s => some (k, s) | _ => none)

/-- the values reported to the trial: value and step -/
def reportsOf (log : List (Event S)) : List (Option S × Nat) :=
  log.filterMap (fun e => match e with | .report x k => some (x, k) | _ => none)

/-- The local variables of `learn_with_optimizer` (base_earlystop.py:117-118) with the recommender and
the calls made so far. -/
structure Loop (σ β S : Type) where
  model : Rec σ β
  best : S
  degradation : Nat
  log : List (Event S)

/-- how one pass of the loop body ends -/
inductive Flow where
  | next
  | stop
  | raise (e : Err)
  deriving DecidableEq

/-- The outside world of one call of `learn_with_optimizer`: evaluator and optuna trial, if given, and
the three numbers.  `shouldPrune` may depend on everything reported so far.  Negative values of
`score_degradation_max` act like 0; negative `max_epoch` like 0 epochs. -/
structure Setup (σ S : Type) where
  evaluator : Option (Nat → σ → Except Err (Option S))
  shouldPrune : Option (List (Event S) → Bool)
  maxEpoch : Nat
  validateEpoch : Nat
  degradationMax : Nat

variable [LinearOrder S] [OrderBot S] [Neg S]

/-- `relevant_score > best_score`: false for NaN (base_earlystop.py:132) -/
def exceeds (score : Option S) (best : S) : Bool :=
  match score with
  | none => false
  | some s => decide (best < s)

/-- `trial.report(-relevant_score, epoch)` and the pruning check (base_earlystop.py:142-146) -/
def reportTrial (U : Setup σ S) (k : Nat) (score : Option S) (st : Loop σ β S) : Loop σ β S × Flow :=
  match U.shouldPrune with
  | none => (st, .next)
  | some prune =>
    let st := { st with log := st.log ++ [.report (score.map (fun s => -s)) k] }
    if prune st.log then (st, .raise .trialPruned) else (st, .next)

/-- What follows the evaluation (base_earlystop.py:131-146) -/
def judge (T : TrainerOps σ β) (U : Setup σ S) (k : Nat) (score : Option S) (st : Loop σ β S) :
    Loop σ β S × Flow :=
  if exceeds score st.best then
    match st.model.saveState T with
    | .error e => (st, .raise e)
    | .ok r =>
      reportTrial U k score
        { st with model := { r with learntEpochs := some (k + 1) }, best := score.getD ⊥, degradation := 0 }
  else
    let st := { st with degradation := st.degradation + 1 }
    if st.degradation ≥ U.degradationMax then (st, .stop) else reportTrial U k score st

/-- One pass of the loop, for the epoch with index `k` (base_earlystop.py:120-146).  `% 0` raises
`ZeroDivisionError`. -/
def body (T : TrainerOps σ β) (U : Setup σ S) (k : Nat) (st : Loop σ β S) : Loop σ β S × Flow :=
  match st.model.runEpoch T k with
  | .error e => (st, .raise e)
  | .ok r =>
    let st := { st with model := r, log := st.log ++ [.epoch k] }
    if U.validateEpoch = 0 then (st, .raise .zeroDivisionError)
    else if (k + 1) % U.validateEpoch ≠ 0 then (st, .next)
    else
      match U.evaluator, r.trainer with
      | none, _ => (st, .next)
      | some _, none => (st, .raise .runtimeError)
      | some f, some s =>
        match f k s with
        | .error e => (st, .raise e)
        | .ok score => judge T U k score { st with log := st.log ++ [.validate k score] }

/-- The `for` loop (base_earlystop.py:119-146): `left` passes, the next has index `k`. -/
def loop (T : TrainerOps σ β) (U : Setup σ S) : Nat → Nat → Loop σ β S → Loop σ β S × Except Err Unit
  | 0, _, st => (st, .ok ())
  | left + 1, k, st =>
    match body T U k st with
    | (st', .next) => loop T U left (k + 1) st'
    | (st', .stop) => (st', .ok ())
    | (st', .raise e) => (st', .error e)

/-- `learn_with_optimizer` (base_earlystop.py:106-149): the recommender afterwards (also when an
exception is raised), the calls made, and the outcome. -/
def learnWithOptimizer (T : TrainerOps σ β) (U : Setup σ S) (r : Rec σ β) :
    (Rec σ β × List (Event S)) × Except Err Unit :=
  match r.startLearning T with
  | .error e => ((r, []), .error e)
  | .ok r₁ =>
    match loop T U U.maxEpoch 0 ⟨r₁, ⊥, 0, []⟩ with
    | (st, .error e) => ((st.model, st.log), .error e)
    | (st, .ok ()) =>
      match U.evaluator with
      | none => ((st.model, st.log), .ok ())
      | some _ =>
        match st.model.loadState T with
        | .error e => ((st.model, st.log), .error e)
        | .ok r₂ => ((r₂, st.log), .ok ())

/-- `learn` / `_learn` (base_earlystop.py:103-104, base.py:119-126): no evaluator, no trial, defaults
otherwise. -/
def learn (T : TrainerOps σ β) (r : Rec σ β) : (Rec σ β × List (Event S)) × Except Err Unit :=
  learnWithOptimizer T ⟨none, none, r.trainEpochs, 5, 5⟩ r

end

end Irspack.EarlyStop
