import Mathlib.Data.List.Perm.Basic

/-!
# What the C++ standard asks of a comparison, and what it gives for it
-/

namespace Irspack.Spec.Nan

variable {A : Type}

/-- `lt` is a strict weak ordering of the elements of `l` -/
structure StrictWeak (lt : A → A → Bool) (l : List A) : Prop where
  irrefl : ∀ a ∈ l, lt a a = false
  trans : ∀ a ∈ l, ∀ b ∈ l, ∀ c ∈ l, lt a b = true → lt b c = true → lt a c = true
  incomp : ∀ a ∈ l, ∀ b ∈ l, ∀ c ∈ l, lt a b = false → lt b a = false → lt b c = false → lt c b = false →
    lt a c = false ∧ lt c a = false

/-- `std::partial_sort(begin, begin + k, end)`: the behaviour is defined if the comparison is a strict weak
ordering of the elements, and then `l'` is a permutation whose first `k` elements are sorted and precede the
others.  Otherwise anything may happen. -/
def PartialSorted (lt : A → A → Bool) (k : Nat) (l l' : List A) : Prop :=
  StrictWeak lt l → l'.Perm l ∧ (l'.take k).Pairwise (fun a b => lt b a = false) ∧
    ∀ a ∈ l'.take k, ∀ b ∈ l'.drop k, lt b a = false

end Irspack.Spec.Nan
