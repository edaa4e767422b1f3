import Mathlib.Order.Defs.LinearOrder
import Mathlib.Order.BoundedOrder.Basic

/-!
# Specification of early stopping

`sc j` is the validation score of the `j`-th validation, `j = 1, 2, …`; `none` is NaN, `⊥` is `-inf`.
-/

namespace Spec.EarlyStop

/-- The state after `n` epochs of uninterrupted training. -/
def stateAfter {σ ε : Type} (create : Except ε σ) (runEpoch : Nat → σ → Except ε σ) : Nat → Except ε σ
  | 0 => create
  | n + 1 => match stateAfter create runEpoch n with
    | .error e => .error e
    | .ok s => runEpoch n s

/-- The score of the `j`-th validation when a validation takes place after every `v` epochs:
`evaluate k s` is what the evaluator answers for the state `s` at the end of the epoch with index `k`.
(`none` also where training or evaluation raises; then there is no such validation.) -/
def validationScore {σ ε S : Type} (create : Except ε σ) (runEpoch : Nat → σ → Except ε σ)
    (evaluate : Nat → σ → Except ε (Option S)) (v j : Nat) : Option S :=
  match stateAfter create runEpoch (j * v) with
  | .error _ => none
  | .ok s => match evaluate (j * v - 1) s with
    | .error _ => none
    | .ok x => x

section
variable {S : Type} [LinearOrder S] [OrderBot S]

/-- A usable score: a number above `-inf`. -/
def Usable (x : Option S) : Prop := ∃ s, x = some s ∧ ⊥ < s

/-- Validation `k` improves: its score is a number above `-inf` and above all earlier ones. -/
def Improves (sc : Nat → Option S) (k : Nat) : Prop :=
  ∃ s, sc k = some s ∧ ⊥ < s ∧ ∀ j, 1 ≤ j → j < k → ∀ s', sc j = some s' → s' < s

/-- The last `d` validations up to number `m` exist and none of them improved. -/
def Exhausted (sc : Nat → Option S) (d m : Nat) : Prop :=
  d ≤ m ∧ ∀ j, m - d < j → j ≤ m → ¬ Improves sc j

/-- Among the validations `1 … m`, number `j` is the first with the greatest score, and that score is
`s`, above `-inf`. -/
def IsFirstBest (sc : Nat → Option S) (m j : Nat) (s : S) : Prop :=
  1 ≤ j ∧ j ≤ m ∧ sc j = some s ∧ ⊥ < s ∧
    ∀ i, 1 ≤ i → i ≤ m → ∀ s', sc i = some s' → s' ≤ s ∧ (i < j → s' < s)

/-- None of the validations `1 … m` gave a number above `-inf`. -/
def NoneUsable (sc : Nat → Option S) (m : Nat) : Prop :=
  ∀ i, 1 ≤ i → i ≤ m → sc i = none ∨ sc i = some ⊥

end

end Spec.EarlyStop
