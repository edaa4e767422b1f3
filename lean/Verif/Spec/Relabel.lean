import Mathlib.Data.Nat.Basic
import Mathlib.Order.Basic
import Verif.Model.Sparse

/-!
# Giving users and items other numbers

Users and items are known to the library by the numbers of their rows and columns.  A renaming of `n` things
gives each of them another number below `n`.
-/

namespace Irspack.Spec.Relabel

/-- `p i` is the new number of thing `i`; different things get different numbers below `n`. -/
structure Renames (n : Nat) (p : Nat → Nat) : Prop where
  bound : ∀ i, i < n → p i < n
  inj : ∀ i j, i < n → j < n → p i = p j → i = j

/-- The same interactions with other numbers: `σ` renames the users, `π` the items. -/
structure Renamed {R : Type} [AddMonoid R] (X X' : CSR R) (σ π : Nat → Nat) : Prop where
  users : X'.nrows = X.nrows
  items : X'.cols = X.cols
  renamesUsers : Renames X.nrows σ
  renamesItems : Renames X.cols π
  entries : ∀ u i, u < X.nrows → i < X.cols → X'.get (σ u) (π i) = X.get u i

end Irspack.Spec.Relabel
