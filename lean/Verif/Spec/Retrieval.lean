import Mathlib.Order.BoundedOrder.Basic
import Mathlib.Data.List.Basic

/-!
# What a retrieval of recommendations should return

Nothing here refers to the model of the code.
-/

namespace Irspack.Spec

/-- `out` lists the `k` best of the eligible elements by score, best first; equal scores in any order.
(`rest` are the eligible elements left out.) -/
def IsTopScores {A F : Type} [LinearOrder F] (elig : List A) (score : A → F) (k : Nat)
    (out : List A) : Prop :=
  ∃ rest, (out ++ rest).Perm elig ∧ out.length = min k elig.length ∧
    out.Pairwise (fun a b => score b ≤ score a) ∧ ∀ a ∈ out, ∀ b ∈ rest, score b ≤ score a

/-- The eligible items: those of the allowed list (all known items if there is none) that are known,
not forbidden, and not scored `-inf`. -/
def eligible {I F : Type} [DecidableEq I] [LinearOrder F] [OrderBot F] (known : List I)
    (allowed : Option (List I)) (forbidden : List I) (score : I → F) : List I :=
  (allowed.getD known).filter (fun x => decide (x ∈ known ∧ x ∉ forbidden ∧ score x ≠ ⊥))

/-- The allowed list that applies to user `u`: the per-user lists take precedence. -/
def allowedTo {I : Type} (allowed : Option (List I)) (perUser : Option (List (List I))) (u : Nat) :
    Option (List I) :=
  match perUser with
  | some ls => some (ls.getD u [])
  | none => allowed

end Irspack.Spec
