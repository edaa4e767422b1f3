import Verif.Model.FloatSim
import Verif.Spec.Rounding
import Verif.Spec.Similarity
import Mathlib.Data.Multiset.Basic
import Mathlib.Algebra.BigOperators.Group.Multiset.Basic

/-!
# What is assumed of double-precision arithmetic
-/

namespace Irspack.Spec.FloatSim

open Irspack.Sim

/-- `r` comes from adding up the numbers `s` in some order with the rounding `fl`: each number may be
rounded first (a product that is not fused with its addition), and so is the result of each addition.
(Adding to an accumulator that holds 0 is exact and needs no mention.) -/
inductive SummedBy (fl : ℝ → ℝ) : Multiset ℝ → ℝ → Prop
  | exact (x : ℝ) : SummedBy fl {x} x
  | rounded (x : ℝ) : SummedBy fl {x} (fl x)
  | add (s t : Multiset ℝ) (a b : ℝ) : SummedBy fl s a → SummedBy fl t b → SummedBy fl (s + t) (fl (a + b))

/-- Every operation has relative error at most `u`; sums are computed by rounded additions, in some order. -/
structure Accurate (u : ℝ) (M : Float.Machine) : Prop where
  unit : 0 ≤ u
  small : u < 1
  rounds : Rounds u M.fl
  sqrt : ∀ c, 0 ≤ c → |M.sqrt c - Real.sqrt c| ≤ u * Real.sqrt c
  pow : ∀ x y, 0 ≤ x → |M.pow x y - x ^ y| ≤ u * x ^ y
  empty : M.total [] = 0
  total : ∀ l, l ≠ [] → SummedBy M.fl ↑l (M.total l)

/-- No stored value is negative. -/
def NonNegative (X : CSR ℝ) : Prop := ∀ row ∈ X.rows, ∀ e ∈ row, 0 ≤ e.2

/-- No row has more than `B` stored entries. -/
def RowsAtMost (B : Nat) (X : CSR ℝ) : Prop := ∀ row ∈ X.rows, row.length ≤ B

/-- No column has more than `B` stored entries. -/
def ColumnsAtMost (B : Nat) (X : CSR ℝ) : Prop :=
  ∀ j, (X.rows.map (fun row => row.countP (fun e => decide (e.1 = j)))).sum ≤ B

end Irspack.Spec.FloatSim
