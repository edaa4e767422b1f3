import Verif.Model.RandomState
import Verif.Spec.Split

/-!
# Specification vocabulary for C76
-/

namespace Irspack.RandomState

open Irspack Irspack.Split

/-- The library's shuffles are permutations. -/
structure Shuffles {G M : Type} (np : Random G M) : Prop where
  shuffle : ∀ g n, (np.shuffle g n).1.Perm (List.range n)
  mtShuffle : ∀ m n, (np.mtShuffle m n).1.Perm (List.range n)

section
variable {U I T : Type} [LinearOrder U] [LinearOrder I] [LinearOrder T]

/-- The world after a sequence of calls. -/
noncomputable def after {G M : Type} (np : Random G M) (fl : ℝ → ℝ) (e : Orders U I T)
    (calls : List (Request U I T × Arg)) (w : World G) : World G :=
  calls.foldl (fun w c => (run np fl e c.1 c.2 w).2) w

/-- The specification of one call: what it returns, in terms of the models of C22-C27, C71 with
permutations as shuffles. -/
def ReturnsModel (fl : ℝ → ℝ) (e : Orders U I T) (req : Request U I T)
    (x : Except Err (Result U I)) : Prop :=
  match req with
  | .rowwise X r n c => ∃ shuf : Nat → List Nat, (∀ k, (shuf k).Perm (List.range (X.rows.getD k []).length)) ∧
      x = (rowwiseSplit fl X r n c shuf).map (fun s => .pair s.1 s.2)
  | .holdout p df => ∃ sh rs, (∀ k l, (sh k l).Perm l) ∧ (∀ k r n, (rs k r n).Perm (List.range n)) ∧
      x = (partialUserHoldout fl (⟨sh, rs, e.setOrderU, e.setOrderI, e.sortValues⟩ : Oracle U I T) p
        df).map .datasets
  | .specific df v t => ∃ sh : Nat → List U → List U, (∀ k l, (sh k l).Perm l) ∧
      x = (holdoutSpecific fl (⟨sh, fun _ _ n => List.range n, e.setOrderU, e.setOrderI,
        e.sortValues⟩ : Oracle U I T) df v t).map .datasets
  | .sample nU nI nC t => ∃ gu gi draw,
      x = .ok (.matrix (SampleData.mfExampleData nU nI nC gu gi t draw))

end
end Irspack.RandomState
