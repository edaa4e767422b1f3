import Mathlib.Analysis.SpecialFunctions.Log.Base
import Mathlib.Data.Int.Log

/-!
# Rounding errors

What it means that a computed number is within a number of rounding errors of the exact one, and a
concrete rounding: to the nearest number with 53 significant binary digits.
-/

namespace Irspack.Spec

/-- `x̂` is within `d` rounding errors of relative size `u` of `x ≥ 0`: each is at least `(1 - u)^d`
times the other. -/
def Within (u : ℝ) (d : Nat) (x xhat : ℝ) : Prop :=
  0 ≤ x ∧ (1 - u) ^ d * x ≤ xhat ∧ (1 - u) ^ d * xhat ≤ x

/-- Every result is off by at most the fraction `u` of its exact value. -/
def Rounds (u : ℝ) (fl : ℝ → ℝ) : Prop := ∀ x, |fl x - x| ≤ u * |x|

/-- Integers up to `N` in absolute value are not rounded (`N = 2^53` for `double`). -/
def ExactOnIntegers (N : Nat) (fl : ℝ → ℝ) : Prop := ∀ z : ℤ, |z| ≤ (N : ℤ) → fl z = z

/-- The library's binary logarithm of integers `≥ 2` has relative error at most `u`. -/
def AccurateLog2 (u : ℝ) (lg : Nat → ℝ) : Prop :=
  ∀ n, 2 ≤ n → |lg n - Real.logb 2 n| ≤ u * |Real.logb 2 n|

/-- The library's natural logarithm of positive numbers has relative error at most `u`. -/
def AccurateLog (u : ℝ) (lg : ℝ → ℝ) : Prop := ∀ x, 0 < x → |lg x - Real.log x| ≤ u * |Real.log x|

/-- Numbers up to 1 are not rounded to more than 1. -/
def KeepsShares (fl : ℝ → ℝ) : Prop := ∀ x, 0 < x → x ≤ 1 → fl x ≤ 1

/-- To nearest with `p` significant binary digits (half-way cases upwards; no bounds on the exponent).
`p = 53` is IEEE double precision. -/
noncomputable def toNearest (p : Nat) (x : ℝ) : ℝ :=
  (round (x / 2 ^ (Int.log 2 |x| - p + 1)) : ℝ) * 2 ^ (Int.log 2 |x| - p + 1)

end Irspack.Spec
