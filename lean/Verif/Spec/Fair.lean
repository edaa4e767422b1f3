import Mathlib.Data.Fintype.Perm
import Mathlib.Data.Fintype.Pi
import Mathlib.Data.Rat.Defs
import Mathlib.Algebra.Order.Ring.Rat
import Mathlib.Algebra.BigOperators.Group.Finset.Basic
import Verif.Spec.Split

/-!
# What it means that a random split favours nobody

A shuffle is ideal if all orders are equally likely; several shuffles are ideal if, in addition, they are independent.
So the probability of an event is the number of combinations of orders for which it happens, divided by the number of
all combinations.
-/

namespace Irspack.Spec.Fair

open Irspack.Split

open Classical in
/-- the probability of an event if all elements of `Ω` are equally likely -/
noncomputable def chance {Ω : Type} [Fintype Ω] (E : Ω → Prop) : ℚ :=
  ((Finset.univ.filter E).card : ℚ) / (Fintype.card Ω : ℚ)

open Classical in
/-- the mean of a number that depends on the shuffles -/
noncomputable def mean {Ω : Type} [Fintype Ω] (f : Ω → ℝ) : ℝ := (∑ ω, f ω) / (Fintype.card Ω : ℝ)

/-- the positions `0 … n-1` in the order given by a permutation -/
def order {n : Nat} (σ : Equiv.Perm (Fin n)) : List Nat := List.ofFn (fun i => (σ i : Nat))

/-- The number of entries of a row with `len` stored entries that is held out: the rounded part `ratio`, or `n` entries
(all if there are fewer). -/
noncomputable def heldOutSize (fl : ℝ → ℝ) (ratio : ℝ) (n : Option Int) (ceil : Bool) (len : Nat) : Nat :=
  match n with
  | none => if ceil then ⌈fl (len * ratio)⌉₊ else ⌊fl (len * ratio)⌋₊
  | some m => min m.toNat len

/-- one order for each row of a matrix -/
abbrev RowShuffles (X : Csr ℝ) : Type := ∀ r : Fin X.rows.length, Equiv.Perm (Fin X.rows[r].length)

/-- the orders of the rows as lists -/
def rowOrders {X : Csr ℝ} (σ : RowShuffles X) (r : Nat) : List Nat :=
  if h : r < X.rows.length then order (σ ⟨r, h⟩) else []

/-- One order for each call of `shuffle` (there are at most two) and each length a shuffled list may have. -/
abbrev ListShuffles (n : Nat) : Type := ∀ (_ : Fin 2) (len : Fin (n + 1)), Equiv.Perm (Fin len)

/-- the elements of a list in the order of the positions -/
def arrange {A : Type} (perm : List Nat) (l : List A) : List A := perm.filterMap (fun k => l[k]?)

/-- call number `k` of `shuffle` -/
def shuffled {n : Nat} (σ : ListShuffles n) {A : Type} (k : Nat) (l : List A) : List A :=
  if h : k < 2 ∧ l.length < n + 1 then arrange (order (σ ⟨k, h.1⟩ ⟨l.length, h.2⟩)) l else l

/-- the three parts of a hold-out -/
inductive Part where
  | train | val | test
  deriving DecidableEq

instance : Fintype Part := ⟨{.train, .val, .test}, fun p => by cases p <;> decide⟩

/-- the number of users an assignment puts into a part -/
def countIn {V : Type} [Fintype V] (a : V → Part) (part : Part) : Nat :=
  (Finset.univ.filter (fun v => a v = part)).card

/-- the number of assignments of users to the parts that make the parts as large as `a` does -/
def assignmentsLike {V : Type} [Fintype V] [DecidableEq V] (a : V → Part) : Nat :=
  (Finset.univ.filter (fun a' : V → Part => ∀ part, countIn a' part = countIn a part)).card

/-- the same program with the given shuffles -/
def withShuffles {U I T : Type} {n : Nat} (o : Oracle U I T) (ω : ListShuffles n) : Oracle U I T :=
  { o with shuffle := fun k l => shuffled ω k l }

/-- the users of a frame -/
def users {U I T : Type} [DecidableEq U] (df : List (Row U I T)) : Finset U := (df.map Row.user).toFinset

/-- the users with a flagged interaction -/
def flaggedUsers {U I T : Type} [DecidableEq U] (df : List (Row U I T × Bool)) : Finset U :=
  ((df.filter (fun r => r.2)).map (fun r => r.1.user)).toFinset

/-- the users of a part -/
def usersIn {U I : Type} (H : Holdout U I) : Part → List U
  | .train => H.train.userIds
  | .val => H.val.userIds
  | .test => H.test.userIds

end Irspack.Spec.Fair
