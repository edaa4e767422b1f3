import Verif.Model.Tuning

/-! # The best trial of a study -/

namespace Irspack.Spec.Tuning

open Irspack.Tuning

variable {K V Data : Type}

/-- `b` is the best trial of a study that minimises, with value `w`: it is completed, no completed trial has
a lesser value, and no earlier completed trial has the same value. -/
def IsBest [LT K] [LE K] (ts : List (Frozen K V Data)) (b : Frozen K V Data) (w : K) : Prop :=
  ∃ before after, ts = before ++ b :: after ∧ b.outcome = .complete w ∧
    (∀ t ∈ before, ∀ v, t.outcome = .complete v → w < v) ∧
    ∀ t ∈ after, ∀ v, t.outcome = .complete v → w ≤ v

/-- The bookkeeping of a study: trials are numbered from zero in order, a number occurs at most once in the
recorded scores, and only numbers of trials occur. -/
def Numbered (s : Study K V Data) : Prop :=
  s.trials.map (·.number) = List.range s.trials.length ∧
    (s.scores.map (·.1)).Nodup ∧ ∀ e ∈ s.scores, e.1 < s.trials.length

/-- every completed trial has its scores recorded: under its number, by metric name and cutoff, and its
value is minus the score of the target metric -/
def Recorded [Neg K] (target suffix : List Char) (s : Study K V Data) : Prop :=
  ∀ t ∈ s.trials, ∀ v, t.outcome = .complete v →
    ∃ sc x, (t.number, sc) ∈ s.scores ∧ Dict.get? sc (target ++ suffix) = some (some x) ∧ v = -x

/-- the trial has this value in the history: its own when completed, the last reported one when pruned -/
def HasValue (t : Frozen K V Data) (v : K) : Prop :=
  t.outcome = .complete v ∨ t.outcome = .pruned (some v)

end Irspack.Spec.Tuning
