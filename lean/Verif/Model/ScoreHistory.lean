import Verif.Model.Tuning

/-!
# The score history of a study shared by several workers

`add_score_to_trial` (/repo/src/irspack/optimization/optimizer.py:21-34) reads the study attribute
`scores`, appends to the copy it got, and writes the whole list back.  `optimize_with_study` advertises
distributed optimisation (optimizer.py:166-172), where several workers do this on one storage.  A step is one
access to the storage, which optuna makes atomic.
-/

namespace Irspack.Tuning.Shared

variable {S : Type}

/-- an access to the storage by the worker of trial `n` -/
inductive Event where
  /-- `trial.study.user_attrs.get("scores", [])` (optimizer.py:22-24) -/
  | read (n : Nat)
  /-- `trial.study.set_user_attr("scores", score_history)` (optimizer.py:34) -/
  | write (n : Nat)
  deriving DecidableEq

/-- the stored list and the copies held by the workers, by trial -/
structure State (S : Type) where
  stored : List (Nat × S)
  held : Nat → List (Nat × S)

/-- One access.  The copy is extended by the worker between its two accesses (optimizer.py:25-33); `score n`
are the scores of trial `n`. -/
def step (score : Nat → S) (s : State S) : Event → State S
  | .read n => { s with held := fun m => if m = n then s.stored else s.held m }
  | .write n => { s with stored := s.held n ++ [(n, score n)] }

/-- a schedule -/
def run (score : Nat → S) (evs : List Event) (s : State S) : State S := evs.foldl (step score) s

/-- the study before the first trial -/
def initial : State S := ⟨[], fun _ => []⟩

end Irspack.Tuning.Shared
