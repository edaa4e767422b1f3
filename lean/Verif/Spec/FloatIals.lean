import Mathlib.Data.Multiset.Basic
import Mathlib.Algebra.BigOperators.Group.Multiset.Basic
import Mathlib.Data.Matrix.Mul
import Verif.Spec.Ials
import Verif.Spec.Rounding

/-!
# Sums in rounded arithmetic, in any order

What may be assumed of floating-point sums of products when the order of the additions is up to a
library (vectorised, blocked, with or without fused multiply-add), and the error bounds for iALS that are
stated in these terms.  Overflow and underflow are left out.
-/

namespace Irspack.Spec

/-- `r` comes from adding up the numbers `s` in some order: each number may be rounded first (a product
that is not fused with its addition), and so is the result of each addition.  Adding `0` is exact in
floating-point arithmetic, so accumulators that start at 0 need no mention. -/
inductive AddedUp (u : ℝ) : Multiset ℝ → ℝ → Prop
  | exact (x : ℝ) : AddedUp u {x} x
  | rounded (x r : ℝ) : |r - x| ≤ u * |x| → AddedUp u {x} r
  | add (s t : Multiset ℝ) (a b r : ℝ) : AddedUp u s a → AddedUp u t b → |r - (a + b)| ≤ u * |a + b| →
      AddedUp u (s + t) r

/-- Componentwise backward stability of a Cholesky solver (Higham, Accuracy and Stability of Numerical
Algorithms, theorem 10.4): the computed solution solves a system whose matrix differs from the given
symmetric matrix, of which the upper triangle is read, by at most `eta √(a_ii a_jj)`. -/
def BackwardStable {K : Nat} (eta : ℝ)
    (solve : Matrix (Fin K) (Fin K) ℝ → (Fin K → ℝ) → Option (Fin K → ℝ)) : Prop :=
  ∀ (A : Matrix (Fin K) (Fin K) ℝ) (b x : Fin K → ℝ), solve A b = some x →
    ∃ E : Matrix (Fin K) (Fin K) ℝ, (∀ i j, |E i j| ≤ eta * (Real.sqrt (A i i) * Real.sqrt (A j j))) ∧
      ∀ i, ∑ j, ((if i ≤ j then A i j else A j i) + E i j) * x j = b i

/-- The Cholesky factorisation goes through for matrices that are definite with a margin (Higham,
theorem 10.7): it refuses no matrix, given by its upper triangle, with
`margin Σ a_kk x_k² < xᵀ A x` for every `x ≠ 0`. -/
def AcceptsDefinite {K : Nat} (margin : ℝ)
    (solve : Matrix (Fin K) (Fin K) ℝ → (Fin K → ℝ) → Option (Fin K → ℝ)) : Prop :=
  ∀ (A : Matrix (Fin K) (Fin K) ℝ) (b : Fin K → ℝ),
    (∀ x : Fin K → ℝ, x ≠ 0 → margin * ∑ k, A k k * x k ^ 2 <
      ∑ i, ∑ j, x i * (if i ≤ j then A i j else A j i) * x j) →
    solve A b ≠ none

namespace Ials

variable {K : Nat}

open Classical in
/-- `σ_k = √(α₀ Σ_i v_ik² + Σ_{i ∈ S_u} X_ui v_ik² + λ_u)`: the root of the `k`-th diagonal entry of the
system of user `u` for the item embeddings `B`. -/
noncomputable def scale (p : Params) (D : Data) (B : Nat → Fin K → ℝ) (u : Nat) (k : Fin K) : ℝ :=
  Real.sqrt (p.alpha0 * ∑ i ∈ Finset.range D.I, B i k ^ 2
    + ∑ i ∈ (Finset.range D.I).filter (fun i => D.S u i), D.X u i * B i k ^ 2 + userWeight p D u)

open Classical in
/-- the right-hand side of the system, with absolute values -/
noncomputable def rhsScale (p : Params) (D : Data) (B : Nat → Fin K → ℝ) (u : Nat) (k : Fin K) : ℝ :=
  ∑ i ∈ (Finset.range D.I).filter (fun i => D.S u i),
    (D.X u i + if p.original = true then p.alpha0 else 0) * |B i k|

/-- How far an embedding `x` of user `u` may be from solving the system in component `k`, after `a`
roundings in its matrix and `b` in its right-hand side, with a solver of backward error `eta`. -/
noncomputable def residualBound (unit eta : ℝ) (a b : Nat) (p : Params) (D : Data) (B : Nat → Fin K → ℝ)
    (u : Nat) (x : Fin K → ℝ) (k : Fin K) : ℝ :=
  ((1 + unit) ^ a - 1 + eta * (1 + unit) ^ a) * (scale p D B u k * ∑ j, scale p D B u j * |x j|)
    + ((1 + unit) ^ b - 1) * rhsScale p D B u k

end Ials

end Irspack.Spec
