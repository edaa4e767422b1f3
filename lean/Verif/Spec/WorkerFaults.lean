import Verif.Model.WorkerFaults

/-! # What goes wrong in a parallel region, and what the caller is told -/

namespace Irspack.Spec.WorkerFaults

open Irspack.WorkerFaults

variable {T : Nat} {ε L M : Type}

/-- Something fails in a region of `n` rows whatever the schedule: a worker is refused, a worker fails before its first
row, or a row fails whoever gets it. -/
def Fails (n : Nat) (tr : Trouble T ε L M) : Prop :=
  (∃ t, tr.starts t = false) ∨ (∃ t, tr.prologue t ≠ none) ∨ ∃ r, r < n ∧ ∀ t, tr.row t r ≠ none

/-- `e` is the exception of one of the failures. -/
def Genuine (n : Nat) (tr : Trouble T ε L M) (e : ε) : Prop :=
  (e = tr.refusal ∧ ∃ t, tr.starts t = false) ∨ (∃ t, tr.prologue t = some e) ∨ ∃ t r, r < n ∧ tr.row t r = some e

/-- The routines that report failures. -/
def reporting : List Routine :=
  [.slim, .metrics, .listMetrics, .prepareP, .stepCg, .stepCholesky, .stepCholeskyPrior, .featureWeight, .computeLoss]

/-- The routines on plain threads. -/
def plainThreads : List Routine := [.sparseProduct, .prediction, .stepDimrange, .stepIcd, .userScores]

/-- Nothing fails. -/
def Sound (tr : Trouble T ε L M) : Prop :=
  (∀ t, tr.starts t = true) ∧ (∀ t, tr.prologue t = none) ∧ ∀ t r, tr.row t r = none

end Irspack.Spec.WorkerFaults
