import Verif.Model.Ease
import Verif.Spec.Ease
import Mathlib.LinearAlgebra.Matrix.ToLin
import Mathlib.LinearAlgebra.Matrix.Nondegenerate
import Mathlib.Algebra.Order.Field.Basic
import Mathlib.Algebra.Order.BigOperators.Ring.Finset
import Mathlib.Tactic.Ring
import Mathlib.Tactic.LinearCombination
import Mathlib.LinearAlgebra.Matrix.ToLinearEquiv
import Mathlib.Tactic.Linarith
import Mathlib.Tactic.FieldSimp
import Mathlib.Tactic.Positivity
import Mathlib.Tactic.FinCases
import Mathlib.Tactic.NormNum

/-! # C40: DenseSLIM and EDLAE return the constrained optimum -/

namespace Irspack.Props
open Ease Spec.Ease Matrix

variable {K : Type} [Field K] [LinearOrder K] [IsStrictOrderedRing K] {U F : Nat}

theorem quad_pos (X : Matrix (Fin U) (Fin F) K) (lamb : Fin F → K) (hl : ∀ i, 0 < lamb i)
    (v : Fin F → K) (hv : v ≠ 0) : 0 < v ⬝ᵥ ((gram X + diagonal lamb) *ᵥ v) := by
  have e : v ⬝ᵥ ((gram X + diagonal lamb) *ᵥ v) = ∑ u, (X *ᵥ v) u ^ 2 + ∑ i, lamb i * v i ^ 2 := by
    rw [add_mulVec, dotProduct_add]
    congr 1
    · unfold gram
      rw [← mulVec_mulVec, dotProduct_mulVec, vecMul_transpose]
      unfold dotProduct
      exact Finset.sum_congr rfl (fun u _ => by ring)
    · unfold dotProduct
      exact Finset.sum_congr rfl (fun i _ => by rw [mulVec_diagonal]; ring)
  rw [e]
  obtain ⟨i, hi⟩ : ∃ i, v i ≠ 0 := by
    by_contra h
    push Not at h
    exact hv (funext h)
  have h1 : 0 ≤ ∑ u, (X *ᵥ v) u ^ 2 := Finset.sum_nonneg (fun _ _ => sq_nonneg _)
  have h2 : 0 < ∑ i, lamb i * v i ^ 2 := by
    apply Finset.sum_pos'
    · intro i _; exact mul_nonneg (hl i).le (sq_nonneg _)
    · exact ⟨i, Finset.mem_univ i, mul_pos (hl i) (by positivity)⟩
  linarith

theorem gram_unit (X : Matrix (Fin U) (Fin F) K) (lamb : Fin F → K) (hl : ∀ i, 0 < lamb i) :
    IsUnit (gram X + diagonal lamb).det := by
  rw [isUnit_iff_ne_zero]
  intro h
  obtain ⟨v, hv, h0⟩ := Matrix.exists_mulVec_eq_zero_iff.mpr h
  have := quad_pos X lamb hl v hv
  rw [h0, dotProduct_zero] at this
  exact lt_irrefl _ this

/-- the diagonal of the inverse is positive -/
theorem inv_diag_pos (X : Matrix (Fin U) (Fin F) K) (lamb : Fin F → K) (hl : ∀ i, 0 < lamb i)
    (j : Fin F) : 0 < (gram X + diagonal lamb)⁻¹ j j := by
  set A := gram X + diagonal lamb
  have hu : IsUnit A.det := gram_unit X lamb hl
  set v : Fin F → K := A⁻¹ *ᵥ (Pi.single j 1)
  have hAv : A *ᵥ v = Pi.single j 1 := by
    simp only [v]
    rw [mulVec_mulVec, mul_nonsing_inv A hu, one_mulVec]
  have hv : v ≠ 0 := by
    intro h
    rw [h, mulVec_zero] at hAv
    have := congrFun hAv j
    simp at this
  have := quad_pos X lamb hl v hv
  change 0 < v ⬝ᵥ (A *ᵥ v) at this
  rw [hAv] at this
  simpa [v] using this

/-- the optimality conditions and what follows from them -/
theorem solve_optimal (X : Matrix (Fin U) (Fin F) K) (lamb : Fin F → K) (hl : ∀ i, 0 < lamb i) :
    ∃ W, solve (gram X) lamb = .ok W ∧ ZeroDiagonal W ∧
      ∀ B, ZeroDiagonal B → loss X lamb B =
        loss X lamb W + (∑ u, ∑ j, (∑ f, X u f * (B f j - W f j)) ^ 2
          + ∑ i, lamb i * ∑ j, (B i j - W i j) ^ 2) := by
  set A := gram X + diagonal lamb with hA
  have hu : IsUnit A.det := gram_unit X lamb hl
  set W : Matrix (Fin F) (Fin F) K := fun i j => if i = j then 0 else A⁻¹ i j * -(1 / A⁻¹ j j) with hW
  refine ⟨W, ?_, ?_, ?_⟩
  · unfold solve
    simp only
    rw [if_pos hu, if_neg]
    rintro ⟨j, hj⟩
    exact (inv_diag_pos X lamb hl j).ne' hj
  · intro i; simp [hW]
  intro B hB
  have hpos := inv_diag_pos X lamb hl
  -- W = 1 - A⁻¹ diag(1 / A⁻¹_jj)
  have hW' : W = 1 - A⁻¹ * diagonal (fun j => 1 / A⁻¹ j j) := by
    ext i j
    simp only [hW, Matrix.sub_apply, mul_diagonal]
    by_cases h : i = j
    · subst h
      have := (hpos i).ne'
      rw [if_pos rfl, one_apply_eq]
      change A⁻¹ i i ≠ 0 at this
      field_simp; ring
    · rw [if_neg h, one_apply_ne h]; ring
  have hAW : A * W = A - diagonal (fun j => 1 / A⁻¹ j j) := by
    rw [hW', mul_sub, mul_one, ← mul_assoc, mul_nonsing_inv A hu, one_mul]
  have hstat : ∀ i j, i ≠ j → ∑ u, X u i * (∑ f, X u f * W f j - X u j) + lamb i * W i j = 0 := by
    intro i j hij
    have h1 : (A * W) i j = A i j := by
      rw [hAW, Matrix.sub_apply, diagonal_apply_ne _ hij, sub_zero]
    have h2 : A i j = ∑ u, X u i * X u j := by
      simp [hA, gram, mul_apply, diagonal_apply_ne _ hij]
    have h3 : (A * W) i j = ∑ u, X u i * ∑ f, X u f * W f j + lamb i * W i j := by
      rw [hA, add_mul, Matrix.add_apply, diagonal_mul]
      congr 1
      unfold gram
      rw [Matrix.mul_assoc, mul_apply]
      exact Finset.sum_congr rfl (fun u _ => by rw [transpose_apply, mul_apply])
    rw [h1, h2] at h3
    have h4 : ∑ u, X u i * (∑ f, X u f * W f j - X u j) =
        ∑ u, X u i * ∑ f, X u f * W f j - ∑ u, X u i * X u j := by
      rw [← Finset.sum_sub_distrib]
      exact Finset.sum_congr rfl (fun u _ => by ring)
    rw [h4]
    linear_combination -h3
  have hWd : ∀ i, W i i = 0 := fun i => by simp [hW]
  have hcross : ∑ u, ∑ j, (∑ f, X u f * W f j - X u j) * (∑ f, X u f * (B f j - W f j))
      + ∑ i, lamb i * ∑ j, W i j * (B i j - W i j) = 0 := by
    have e1 : ∑ u, ∑ j, (∑ f, X u f * W f j - X u j) * (∑ f, X u f * (B f j - W f j)) =
        ∑ i, ∑ j, (∑ u, X u i * (∑ f, X u f * W f j - X u j)) * (B i j - W i j) := by
      have : ∀ u, ∑ j, (∑ f, X u f * W f j - X u j) * (∑ f, X u f * (B f j - W f j)) =
          ∑ i, ∑ j, X u i * (∑ f, X u f * W f j - X u j) * (B i j - W i j) := by
        intro u
        rw [Finset.sum_comm]
        apply Finset.sum_congr rfl
        intro j _
        rw [Finset.mul_sum]
        exact Finset.sum_congr rfl (fun i _ => by ring)
      rw [Finset.sum_congr rfl (fun u _ => this u), Finset.sum_comm]
      apply Finset.sum_congr rfl
      intro i _
      rw [Finset.sum_comm]
      exact Finset.sum_congr rfl (fun j _ => by rw [Finset.sum_mul])
    rw [e1, ← Finset.sum_add_distrib]
    apply Finset.sum_eq_zero
    intro i _
    rw [Finset.mul_sum, ← Finset.sum_add_distrib]
    apply Finset.sum_eq_zero
    intro j _
    by_cases h : i = j
    · subst h; rw [hB i, hWd i]; ring
    · linear_combination (B i j - W i j) * hstat i j h
  unfold loss
  have e1 : ∀ u j, (X u j - ∑ f, X u f * B f j) ^ 2 = (X u j - ∑ f, X u f * W f j) ^ 2
      + (∑ f, X u f * (B f j - W f j)) ^ 2
      + 2 * ((∑ f, X u f * W f j - X u j) * (∑ f, X u f * (B f j - W f j))) := by
    intro u j
    have : ∑ f, X u f * (B f j - W f j) = ∑ f, X u f * B f j - ∑ f, X u f * W f j := by
      rw [← Finset.sum_sub_distrib]
      exact Finset.sum_congr rfl (fun f _ => by ring)
    rw [this]; ring
  have e2 : ∀ i, lamb i * ∑ j, B i j ^ 2 = lamb i * ∑ j, W i j ^ 2 + lamb i * ∑ j, (B i j - W i j) ^ 2
      + 2 * (lamb i * ∑ j, W i j * (B i j - W i j)) := by
    intro i
    simp only [Finset.mul_sum]
    rw [← Finset.sum_add_distrib, ← Finset.sum_add_distrib]
    exact Finset.sum_congr rfl (fun j _ => by ring)
  rw [Finset.sum_congr rfl (fun i _ => e2 i),
    Finset.sum_congr rfl (fun u _ => Finset.sum_congr rfl (fun j _ => e1 u j))]
  simp only [Finset.sum_add_distrib, ← Finset.mul_sum]
  linear_combination 2 * hcross

theorem solve_unique (X : Matrix (Fin U) (Fin F) K) (lamb : Fin F → K) (hl : ∀ i, 0 < lamb i) :
    ∃ W, solve (gram X) lamb = .ok W ∧ ZeroDiagonal W ∧
      ∀ B, ZeroDiagonal B → loss X lamb W ≤ loss X lamb B ∧ (B ≠ W → loss X lamb W < loss X lamb B) := by
  obtain ⟨W, h1, h2, h3⟩ := solve_optimal X lamb hl
  refine ⟨W, h1, h2, fun B hB => ?_⟩
  rw [h3 B hB]
  have p1 : 0 ≤ ∑ u, ∑ j, (∑ f, X u f * (B f j - W f j)) ^ 2 :=
    Finset.sum_nonneg (fun _ _ => Finset.sum_nonneg (fun _ _ => sq_nonneg _))
  have p2 : 0 ≤ ∑ i, lamb i * ∑ j, (B i j - W i j) ^ 2 :=
    Finset.sum_nonneg (fun i _ => mul_nonneg (hl i).le (Finset.sum_nonneg (fun _ _ => sq_nonneg _)))
  refine ⟨by linarith, fun hne => ?_⟩
  have p3 : 0 < ∑ i, lamb i * ∑ j, (B i j - W i j) ^ 2 := by
    obtain ⟨i, j, hij⟩ : ∃ i j, B i j ≠ W i j := by
      by_contra h
      push Not at h
      exact hne (by ext i j; exact h i j)
    apply Finset.sum_pos'
    · exact fun i _ => mul_nonneg (hl i).le (Finset.sum_nonneg (fun _ _ => sq_nonneg _))
    · refine ⟨i, Finset.mem_univ i, mul_pos (hl i) ?_⟩
      apply Finset.sum_pos'
      · exact fun _ _ => sq_nonneg _
      · exact ⟨j, Finset.mem_univ j, by have := sub_ne_zero.mpr hij; positivity⟩
  linarith

/-- C40 (DenseSLIM). For every data matrix and every `reg > 0`, learning succeeds; the learned
weights have zero diagonal and are the unique minimiser of `‖X - X B‖² + reg ‖B‖²` over all
matrices with zero diagonal. -/
theorem C40_dense_slim_optimal (X : Matrix (Fin U) (Fin F) K) (reg : K) (hr : 0 < reg) :
    ∃ W, denseSlim X reg = .ok W ∧ ZeroDiagonal W ∧
      ∀ B, ZeroDiagonal B → loss X (fun _ => reg) W ≤ loss X (fun _ => reg) B ∧
        (B ≠ W → loss X (fun _ => reg) W < loss X (fun _ => reg) B) :=
  solve_unique X (fun _ => reg) (fun _ => hr)

theorem edlae_eq (X : Matrix (Fin U) (Fin F) K) (reg p : K) (hp : p ≠ 1) :
    edlae X reg p = solve (gram X) (dropoutPenalty X reg p) := by
  unfold edlae
  simp only
  rw [if_neg (sub_ne_zero.mpr (Ne.symm hp))]
  congr 1
  funext i
  unfold dropoutPenalty gram
  rw [mul_apply]
  congr 2
  exact Finset.sum_congr rfl (fun u _ => by rw [transpose_apply]; ring)

/-- C40 (EDLAE). For every data matrix, `reg > 0` and dropout probability `0 ≤ p < 1`, learning
succeeds; the learned weights have zero diagonal and are the unique minimiser of the squared error
plus the dropout-dependent penalty `Σ_i (p/(1-p) ‖x_i‖² + reg) ‖B_i‖²` over all matrices with zero
diagonal. -/
theorem C40_edlae_optimal (X : Matrix (Fin U) (Fin F) K) (reg p : K) (hr : 0 < reg) (hp0 : 0 ≤ p)
    (hp1 : p < 1) :
    ∃ W, edlae X reg p = .ok W ∧ ZeroDiagonal W ∧
      ∀ B, ZeroDiagonal B → loss X (dropoutPenalty X reg p) W ≤ loss X (dropoutPenalty X reg p) B ∧
        (B ≠ W → loss X (dropoutPenalty X reg p) W < loss X (dropoutPenalty X reg p) B) := by
  rw [edlae_eq X reg p hp1.ne]
  apply solve_unique
  intro i
  unfold dropoutPenalty
  have : 0 ≤ p / (1 - p) * ∑ u, X u i ^ 2 :=
    mul_nonneg (div_nonneg hp0 (by linarith)) (Finset.sum_nonneg (fun _ _ => sq_nonneg _))
  linarith

/-- C40 (no dropout). With `dropout_p = 0`, EDLAE is DenseSLIM, for all data and any `reg`. -/
theorem C40_edlae_without_dropout (X : Matrix (Fin U) (Fin F) K) (reg : K) :
    edlae X reg 0 = denseSlim X reg := by
  rw [edlae_eq X reg 0 zero_ne_one]
  unfold denseSlim
  congr 1
  funext i
  simp [dropoutPenalty]

/-- C40 (full dropout is an error). `dropout_p = 1` raises instead of returning weights. -/
theorem C40_edlae_full_dropout (X : Matrix (Fin U) (Fin F) K) (reg : K) :
    edlae X reg 1 = .error .zeroDivisionError := by
  simp [edlae]

/-- Non-vacuity of C40: two users who both have both items, `reg = 2`: each item predicts the other
with weight 1/2. -/
example : ∃ W, denseSlim (U := 2) (F := 2) (K := Rat) (fun _ _ => 1) 2 = .ok W ∧ W 0 1 = 1 / 2 := by
  obtain ⟨W, h1, hz, h2⟩ := C40_dense_slim_optimal (U := 2) (F := 2) (K := Rat) (fun _ _ => 1) 2 (by norm_num)
  refine ⟨W, h1, ?_⟩
  by_contra hne
  have h3 := (h2 (fun i j => if i = j then 0 else if i = 0 then 1 / 2 else W 1 0)
    (by intro i; simp)).2 (by intro e; apply hne; rw [← e]; simp)
  unfold loss at h3
  simp only [Fin.sum_univ_two, hz 0, hz 1] at h3
  norm_num at h3
  have := sq_pos_of_pos (abs_pos.mpr (sub_ne_zero.mpr hne))
  rw [sq_abs] at this
  nlinarith

end Irspack.Props
