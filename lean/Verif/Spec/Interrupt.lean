import Mathlib.Algebra.BigOperators.Group.List.Basic
import Verif.Model.Basic

/-!
# What an interrupted object may answer

Independent of the model: calls of `learn()` are described by what they would compute and where they were cut off.
-/

namespace Irspack.Spec.Interrupt

/-- The model that the last call stored: the last one that computed a model and was not cut off before storing it. -/
def lastStored {M : Type} (calls : List (Except Err M × Option Nat)) : Option M :=
  (calls.filterMap (fun c => if c.2 = some 0 then none else c.1.toOption)).getLast?

/-- An answer is loud or right: one of the exceptions listed, or what the model `m` answers. -/
def LoudOr {A : Type} (es : List Err) (right : Except Err A) (got : Except Err A) : Prop :=
  got = right ∨ ∃ e ∈ es, got = .error e

/-- the parameters after some of the updates of a training, one after the other -/
inductive Prefix {σ : Type} : List (σ → Except Err σ) → σ → Nat → σ → Prop
  | none (l : List (σ → Except Err σ)) (s : σ) : Prefix l s 0 s
  | cons {a : σ → Except Err σ} {l : List (σ → Except Err σ)} {s s' t : σ} {n : Nat} :
      a s = .ok s' → Prefix l s' n t → Prefix (a :: l) s (n + 1) t

end Irspack.Spec.Interrupt
