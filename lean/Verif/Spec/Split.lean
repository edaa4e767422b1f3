import Verif.Model.Split

/-!
# What the splitting functions should do

`Csr` and `Row` are the data types of the model; nothing else of it is used.
-/

namespace Irspack.Spec
open Irspack.Split

/-- Entry `(u, i)` of a sparse matrix: the sum of the values stored there. -/
def entry (X : Csr ℝ) (u i : Nat) : ℝ :=
  (((X.rows.getD u []).filter (fun p => decide (p.1 = i))).map Prod.snd).sum

/-- No position is stored twice. -/
def Canonical (X : Csr ℝ) : Prop := ∀ row ∈ X.rows, (row.map Prod.fst).Nodup

/-- Every stored value is an integer. -/
def Integral (X : Csr ℝ) : Prop := ∀ row ∈ X.rows, ∀ p ∈ row, ∃ z : ℤ, p.2 = z

/-- A function that rounds real numbers to double precision is monotone and exact on the naturals up to
`2^53`. -/
structure IsRounding (fl : ℝ → ℝ) : Prop where
  mono : Monotone fl
  nat : ∀ n : ℕ, n ≤ 2 ^ 53 → fl n = n

/-- `shuf r` is a rearrangement of the positions of row `r`. -/
def IsRowShuffle (X : Csr ℝ) (shuf : Nat → List Nat) : Prop :=
  ∀ r, (h : r < X.rows.length) → (shuf r).Perm (List.range X.rows[r].length)

variable {U I T : Type} [DecidableEq U] [DecidableEq I]

/-- The interactions of one user with one item. -/
def eventsOf (df : List (Row U I T)) (u : U) (i : I) : List (Row U I T) :=
  df.filter (fun r => decide (r.user = u ∧ r.item = i))

/-- The rows of one user. -/
def rowsOf (df : List (Row U I T)) (u : U) : List (Row U I T) := df.filter (fun r => decide (r.user = u))

/-- Total rating (or number) of the events of `u` with `i`. -/
def totalWeight (useRating : Bool) (df : List (Row U I T)) (u : U) (i : I) : ℝ :=
  ((eventsOf df u i).map (fun r => if useRating then r.rating else 1)).sum

/-- The weight of `u`'s interaction with `i` after removing repetitions: that of the first event. -/
def firstWeight (useRating : Bool) (df : List (Row U I T)) (u : U) (i : I) : ℝ :=
  match eventsOf df u i with
  | [] => 0
  | r :: _ => if useRating then r.rating else 1

/-- The stored columns of row `k`. -/
def storedCols (X : Csr ℝ) (k : Nat) : List Nat := (X.rows.getD k []).map Prod.fst

/-- The shuffles, set orders and sorts are what their libraries promise: rearrangements, the last one
ordered. -/
structure ValidOracle {U I T : Type} [LinearOrder U] [LinearOrder I] [LinearOrder T]
    (o : Oracle U I T) : Prop where
  shuffle : ∀ k l, (o.shuffle k l).Perm l
  rowShuffle : ∀ k r n, (o.rowShuffle k r n).Perm (List.range n)
  setOrderU : ∀ l, (o.setOrderU l).Perm l
  setOrderI : ∀ l, (o.setOrderI l).Perm l
  sortValues : IsSorted o.sortValues

/-- The number of distinct users of a frame. -/
def userCount (df : List (Row U I T)) : Nat := (df.map Row.user).dedup.length

/-- `fl` rounds to a nearest floating-point number with a 53-bit significand. -/
def IsNearest (fl : ℝ → ℝ) : Prop :=
  ∀ x, (∃ m e : ℤ, |m| ≤ 2 ^ 53 ∧ fl x = m * (2 : ℝ) ^ e) ∧
    ∀ m e : ℤ, |m| ≤ 2 ^ 53 → |x - fl x| ≤ |x - m * (2 : ℝ) ^ e|

/-- How often `u` interacted with `i`, counting only rows whose flag satisfies `q`. -/
def countFlagged (q : Bool → Bool) (df : List (Row U I T × Bool)) (u : U) (i : I) : Nat :=
  df.countP (fun r => q r.2 && decide (r.1.user = u ∧ r.1.item = i))

end Irspack.Spec
