import Mathlib.Data.Real.Basic

/-! # What Mult-VAE training and scoring are expected to do -/

namespace Irspack.Spec.MultVAE

/-- The pieces of a list cut into pieces of `size` entries, the last of which may be shorter. -/
def CutInto (size : Nat) (l : List A) (pieces : List (List A)) : Prop :=
  pieces.flatten = l ∧ (∀ p ∈ pieces, p ≠ [] ∧ p.length ≤ size) ∧ ∀ p ∈ pieces.dropLast, p.length = size

/-- The weight of the KL term in update number `t` (counted from 0) when the annealing takes `total`
updates. -/
noncomputable def klWeight (goal total : ℝ) (t : Nat) : ℝ := goal * min 1 (t / total)

end Irspack.Spec.MultVAE
