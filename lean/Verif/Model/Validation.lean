import Verif.Model.EarlyStop
import Verif.Model.MultVAE

/-!
# Early stopping when evaluating changes the trainer

`Model/EarlyStop.lean` takes the evaluator as a function of the trainer's state.  Scoring may also change
that state: every call of `MultVAETrainer.get_score_cold_user` takes keys from the generator that training
uses as well (multvae.py:231-233, 253-256).  Here the evaluator returns the state it leaves behind.
-/

namespace Irspack.EarlyStop

/-- An evaluator: for the epoch with index `k` and the state of the trainer, the answer of
`get_target_score` and the state afterwards (also if it raises). -/
abbrev Watch (σ S : Type) := Nat → σ → Except Err (Option S) × σ

/-- One call of `learn_with_optimizer` with an evaluator (base_earlystop.py:106-113). -/
structure WatchedSetup (σ S : Type) where
  evaluator : Watch σ S
  shouldPrune : Option (List (Event S) → Bool)
  maxEpoch : Nat
  validateEpoch : Nat
  degradationMax : Nat

section
variable {σ β S : Type}

/-- the same with the evaluator's effect on the trainer left out -/
def WatchedSetup.quiet (U : WatchedSetup σ S) : Setup σ S :=
  ⟨some (fun k s => (U.evaluator k s).1), U.shouldPrune, U.maxEpoch, U.validateEpoch, U.degradationMax⟩

variable [LinearOrder S] [OrderBot S] [Neg S]

/-- One pass of the loop (base_earlystop.py:120-146). -/
def watchedBody (T : TrainerOps σ β) (U : WatchedSetup σ S) (k : Nat) (st : Loop σ β S) :
    Loop σ β S × Flow :=
  match st.model.runEpoch T k with
  | .error e => (st, .raise e)
  | .ok r =>
    let st := { st with model := r, log := st.log ++ [.epoch k] }
    if U.validateEpoch = 0 then (st, .raise .zeroDivisionError)
    else if (k + 1) % U.validateEpoch ≠ 0 then (st, .next)
    else
      match r.trainer with
      | none => (st, .raise .runtimeError)
      | some s =>
        let st := { st with model := { r with trainer := some (U.evaluator k s).2 } }
        match (U.evaluator k s).1 with
        | .error e => (st, .raise e)
        | .ok score => judge T U.quiet k score { st with log := st.log ++ [.validate k score] }

/-- The `for` loop (base_earlystop.py:119-146). -/
def watchedLoop (T : TrainerOps σ β) (U : WatchedSetup σ S) :
    Nat → Nat → Loop σ β S → Loop σ β S × Except Err Unit
  | 0, _, st => (st, .ok ())
  | left + 1, k, st =>
    match watchedBody T U k st with
    | (st', .next) => watchedLoop T U left (k + 1) st'
    | (st', .stop) => (st', .ok ())
    | (st', .raise e) => (st', .error e)

/-- `learn_with_optimizer` with an evaluator (base_earlystop.py:106-149). -/
def watchedLearn (T : TrainerOps σ β) (U : WatchedSetup σ S) (r : Rec σ β) :
    (Rec σ β × List (Event S)) × Except Err Unit :=
  match r.startLearning T with
  | .error e => ((r, []), .error e)
  | .ok r₁ =>
    match watchedLoop T U U.maxEpoch 0 ⟨r₁, ⊥, 0, []⟩ with
    | (st, .error e) => ((st.model, st.log), .error e)
    | (st, .ok ()) =>
      match st.model.loadState T with
      | .error e => ((st.model, st.log), .error e)
      | .ok r₂ => ((r₂, st.log), .ok ())

end

end Irspack.EarlyStop

namespace Irspack.MultVAE

open EarlyStop Irspack.Score

variable {O S : Type}

/-- The trainer of a `MultVAERecommender` (multvae.py:129-174, 240-267, 360-372).  `orders k` is the order
in which the users are shuffled in the epoch with index `k`, `upd` the jitted update. -/
noncomputable def vaeOps (cfg : Config) (X : CSR ℝ) (init : Params) (opt : O)
    (upd : Params → Nat → O → List (Nat → ℝ) → ℝ → Params × O) (orders : Nat → List Nat) :
    TrainerOps (State O) Params where
  create := create cfg init opt
  runEpoch k s := runEpoch cfg X upd (orders k) s
  save s := s.params
  load p s := loadParams p s

/-- The blocks of users an evaluator with `offset`, `n` users and `mb_size = mb` asks the model to score
(evaluator.py:412-424; `get_score_block` raises `NotImplementedError`, so `get_score` scores the rows of the
training matrix, multvae.py:374-375). -/
def validationBlocks (X : CSR ℝ) (offset n mb : Nat) : List (CSR ℝ) :=
  (starts n mb).map (fun a => ⟨X.cols, (X.rows.drop (offset + a)).take (min mb (n - a))⟩)

/-- Scoring these blocks one after the other (evaluator.py:417-424, multvae.py:224-238), the keys taken by
one block being gone for the next. -/
noncomputable def watchBlocks (cfg : Config) (nItems : Nat) :
    List (CSR ℝ) → State O → Except Err (List (Dense ℝ)) × State O
  | [], s => (.ok [], s)
  | b :: bs, s =>
    match coldScores cfg nItems s b with
    | .error e => (.error e, s)
    | .ok (d, s') =>
      match watchBlocks cfg nItems bs s' with
      | (.error e, s'') => (.error e, s'')
      | (.ok ds, s'') => (.ok (d :: ds), s'')

/-- `evaluator.get_target_score(self)` of a Mult-VAE recommender (evaluator.py:400-441): what is computed
from the scores of the blocks is an arbitrary function `metric`.  Simplified: the metrics are computed after
all blocks are scored, not in between. -/
noncomputable def vaeWatch (cfg : Config) (X : CSR ℝ) (offset n mb : Nat)
    (metric : Nat → List (Dense ℝ) → Except Err (Option S)) : Watch (State O) S :=
  fun k s =>
    match watchBlocks cfg X.cols (validationBlocks X offset n mb) s with
    | (.error e, s') => (.error e, s')
    | (.ok ds, s') => (metric k ds, s')

end Irspack.MultVAE
