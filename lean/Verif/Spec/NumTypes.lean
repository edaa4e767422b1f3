import Verif.Model.SplitTypes

/-!
# The numbers a type can hold

`NumType` is the model's list of types; nothing else of the model is used.
-/

namespace Irspack.Spec
open Irspack.Split

/-- The binary floating-point numbers with `p` bits of precision (the exponent is not bounded). -/
def IsFloat (p : Nat) (x : ℝ) : Prop := ∃ m e : ℤ, |m| < 2 ^ p ∧ x = m * (2 : ℝ) ^ e

/-- The numbers a type can hold. -/
def Holds : NumType → ℝ → Prop
  | .bool, x => x = 0 ∨ x = 1
  | .int b, x => ∃ z : ℤ, x = z ∧ -2 ^ (b - 1) ≤ z ∧ z < 2 ^ (b - 1)
  | .uint b, x => ∃ z : ℤ, x = z ∧ 0 ≤ z ∧ z < 2 ^ b
  | .float32, x => IsFloat 24 x
  | .float64, x => IsFloat 53 x

/-- `fl` rounds to a nearest floating-point number of `p` bits, breaking ties in any way. -/
def NearestTo (p : Nat) (fl : ℝ → ℝ) : Prop :=
  ∀ x, IsFloat p (fl x) ∧ ∀ y, IsFloat p y → |x - fl x| ≤ |x - y|

/-- Every stored value is one the type can hold. -/
def OfType (d : NumType) (X : Csr ℝ) : Prop := ∀ row ∈ X.rows, ∀ p ∈ row, Holds d p.2

end Irspack.Spec
