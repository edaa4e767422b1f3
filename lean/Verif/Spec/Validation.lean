import Verif.Model.Validation

/-!
# Specification: which random keys the updates of a Mult-VAE training use

A key is a number of the trainer's random sequence; the initialisation takes key 0, so that the first update
of a fresh trainer takes key 1.
-/

namespace Spec.Validation

open Irspack Irspack.MultVAE

variable {O : Type}

/-- `p` are the parameters after `n` epochs of Mult-VAE training, if the updates of the epoch with index `k`
use the keys `first k`, `first k + 1`, … -/
def TrainedWithKeys (cfg : Config) (X : CSR ℝ) (init : Params) (opt : O)
    (upd : Params → Nat → O → List (Nat → ℝ) → ℝ → Params × O) (orders : Nat → List Nat) (first : Nat → Nat)
    (n : Nat) (p : Params) : Prop :=
  ∃ st : Nat → State O, st 0 = ⟨init, opt, 0, 1⟩ ∧
    (∀ k < n, runEpoch cfg X upd (orders k) { st k with keys := first k } = .ok (st (k + 1))) ∧
    (st n).params = p

/-- How many minibatches of `size` rows a matrix of `n` rows is scored in. -/
def batchCount (n size : Nat) : Nat := (n + size - 1) / size

/-- How many keys one validation takes: the evaluator asks for the scores of its `n` users in blocks of `mb`
(the last one may be smaller), and each block is scored in minibatches of `size`. -/
def keysPerValidation (n mb size : Nat) : Nat :=
  ∑ c ∈ Finset.range (batchCount n mb), batchCount (min mb (n - c * mb)) size

end Spec.Validation
