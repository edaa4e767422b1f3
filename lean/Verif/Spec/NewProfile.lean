import Verif.Model.Retrieval

/-!
# What two profiles of a new user have in common
-/

namespace Irspack.Spec.NewProfile

open Retrieval

variable {I : Type} [DecidableEq I]

/-- what a profile says of an item: how often it is in a list, or its weight in a dict -/
noncomputable def amount (p : Profile I) (x : I) : ℝ :=
  match p with
  | .ids l => (l.count x : ℝ)
  | .weights l => ((l.filter (fun q => decide (q.1 = x))).map Prod.snd).sum

/-- Two profiles say the same of each item that is known. -/
def SameAmounts (known : List I) (p q : Profile I) : Prop := ∀ x ∈ known, amount p x = amount q x

/-- the same list, or dict, in another order -/
def Reordered (p q : Profile I) : Prop :=
  match p, q with
  | .ids l, .ids l' => l.Perm l'
  | .weights l, .weights l' => l.Perm l'
  | _, _ => False

/-- no weight of the profile is negative -/
def NonNegative (p : Profile I) : Prop :=
  match p with
  | .ids _ => True
  | .weights l => ∀ q ∈ l, 0 ≤ q.2

/-- all weights of the profile are positive -/
def Positive (p : Profile I) : Prop :=
  match p with
  | .ids _ => True
  | .weights l => ∀ q ∈ l, 0 < q.2

/-- Both calls succeed with the same result, or both raise. -/
def SameOutcome {A : Type} (x y : Except Err A) : Prop :=
  (∃ a, x = .ok a ∧ y = .ok a) ∨ ∃ e e', x = .error e ∧ y = .error e'

end Irspack.Spec.NewProfile
