import Verif.Model.Basic

/-! # Outcomes that agree -/

namespace Irspack

/-- Both computations return the same value, or both raise. -/
def Agree {A : Type} (a b : Except Err A) : Prop :=
  (∃ x, a = .ok x ∧ b = .ok x) ∨ ∃ e e', a = .error e ∧ b = .error e'

end Irspack
