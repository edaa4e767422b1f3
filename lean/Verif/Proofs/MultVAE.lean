import Verif.Model.MultVAE
import Mathlib.Algebra.BigOperators.Field
import Mathlib.Tactic.Ring
import Mathlib.Tactic.Linarith
import Verif.Spec.MultVAE
import Verif.Proofs.Score

namespace Irspack.MultVAE

open Spec.MultVAE Irspack.Score

variable {A : Type}

theorem starts_zero (size : Nat) : starts 0 size = [] := by
  unfold starts
  have : (0 + size - 1) / size = 0 := by
    rcases Nat.eq_zero_or_pos size with h | h
    · subst h; simp
    · exact Nat.div_eq_of_lt (by omega)
  rw [this]
  rfl

theorem starts_succ (n size : Nat) (hs : 0 < size) (hn : 0 < n) :
    starts n size = 0 :: (starts (n - size) size).map (size + ·) := by
  unfold starts
  have : (n + size - 1) / size = (n - size + size - 1) / size + 1 := by
    by_cases h : size ≤ n
    · have : n + size - 1 = (n - size + size - 1) + size := by omega
      rw [this, Nat.add_div_right _ hs]
    · have h1 : (n + size - 1) / size = 1 := by
        rw [Nat.div_eq_iff hs]; omega
      have h2 : (n - size + size - 1) / size = 0 := Nat.div_eq_of_lt (by omega)
      rw [h1, h2]
  rw [this, List.range_succ_eq_map, List.map_cons, List.map_map, List.map_map]
  congr 1
  · exact Nat.zero_mul _
  · apply List.map_congr_left
    intro k _
    simp only [Function.comp_apply]
    rw [Nat.succ_mul, Nat.add_comm]

theorem minibatches_nil (size : Nat) : minibatches size ([] : List A) = [] := by
  unfold minibatches
  rw [List.length_nil, starts_zero]
  rfl

theorem minibatches_step (size : Nat) (hs : 0 < size) (l : List A) (hl : l ≠ []) :
    minibatches size l = l.take size :: minibatches size (l.drop size) := by
  have hpos : 0 < l.length := List.length_pos_iff.mpr hl
  unfold minibatches
  rw [starts_succ _ _ hs hpos, List.map_cons, List.map_map, List.length_drop]
  congr 1
  · rw [List.drop_zero, Nat.zero_add]
    rcases Nat.le_total l.length size with h | h
    · rw [Nat.min_eq_left h, List.take_of_length_le (le_refl _), List.take_of_length_le h]
    · rw [Nat.min_eq_right h]
  · apply List.map_congr_left
    intro a _
    simp only [Function.comp_apply]
    rw [List.take_drop, List.drop_drop]
    by_cases h : size ≤ l.length
    · congr 2
      omega
    · have h1 : l.drop (size + a) = [] := List.drop_eq_nil_of_le (by omega)
      rw [List.drop_eq_nil_of_le (by rw [List.length_take]; omega),
        List.drop_eq_nil_of_le (by rw [List.length_take]; omega)]

theorem minibatches_cut (size : Nat) (hs : 0 < size) :
    ∀ (k : Nat) (l : List A), l.length ≤ k → CutInto size l (minibatches size l) := by
  intro k
  induction k with
  | zero =>
    intro l hl
    have : l = [] := List.length_eq_zero_iff.mp (by omega)
    subst this
    rw [minibatches_nil]
    exact ⟨rfl, by simp, by simp⟩
  | succ k ih =>
    intro l hl
    by_cases hne : l = []
    · subst hne
      rw [minibatches_nil]
      exact ⟨rfl, by simp, by simp⟩
    · rw [minibatches_step size hs l hne]
      have hpos : 0 < l.length := List.length_pos_iff.mpr hne
      obtain ⟨h1, h2, h3⟩ := ih (l.drop size) (by rw [List.length_drop]; omega)
      refine ⟨?_, ?_, ?_⟩
      · rw [List.flatten_cons, h1, List.take_append_drop]
      · intro p hp
        rcases List.mem_cons.mp hp with rfl | hp
        · constructor
          · intro h
            have := congrArg List.length h
            rw [List.length_take, List.length_nil] at this
            omega
          · rw [List.length_take]; omega
        · exact h2 p hp
      · intro p hp
        by_cases hd : l.drop size = []
        · rw [hd, minibatches_nil] at hp
          simp at hp
        · have hmb : minibatches size (l.drop size) ≠ [] := by
            rw [minibatches_step size hs _ hd]; simp
          rw [List.dropLast_cons_of_ne_nil hmb] at hp
          rcases List.mem_cons.mp hp with rfl | hp
          · have : size < l.length := by
              by_contra hc
              exact hd (List.drop_eq_nil_of_le (by omega))
            rw [List.length_take]; omega
          · exact h3 p hp

theorem length_minibatches (size : Nat) (l : List A) :
    (minibatches size l).length = (l.length + size - 1) / size := by
  unfold minibatches starts
  simp

theorem flatMap_minibatches (size : Nat) (hs : 0 < size) (l : List A) (f : A → B) :
    (minibatches size l).flatMap (fun b => b.map f) = l.map f := by
  have h := (minibatches_cut size hs l.length l (le_refl _)).1
  conv_rhs => rw [← h]
  rw [List.flatMap_def, List.map_flatten]

theorem exp_logSoftmax_sum (n : Nat) (hn : 0 < n) (x : Nat → ℝ) :
    ∑ j ∈ Finset.range n, Real.exp (logSoftmax n x j) = 1 := by
  have hpos : 0 < ∑ i ∈ Finset.range n, Real.exp (x i) :=
    Finset.sum_pos (fun i _ => Real.exp_pos _) ⟨0, Finset.mem_range.mpr hn⟩
  unfold logSoftmax
  simp only [Real.exp_sub, Real.exp_log hpos]
  rw [← Finset.sum_div, div_self hpos.ne']

theorem logSoftmax_nonpos (n : Nat) (x : Nat → ℝ) (j : Nat) (hj : j < n) : logSoftmax n x j ≤ 0 := by
  have h := exp_logSoftmax_sum n (by omega) x
  have h1 : Real.exp (logSoftmax n x j) ≤ 1 := by
    rw [← h]
    exact Finset.single_le_sum (f := fun j => Real.exp (logSoftmax n x j))
      (fun i _ => (Real.exp_pos _).le) (Finset.mem_range.mpr hj)
  exact Real.exp_le_one_iff.mp h1

theorem klTerm_nonneg (m v : ℝ) : 0 ≤ 0.5 * (-v + Real.exp (v * 0.5) ^ 2 + m ^ 2 - 1) := by
  have h : Real.exp (v * 0.5) ^ 2 = Real.exp v := by
    rw [← Real.exp_nat_mul]; congr 1; push_cast; ring
  rw [h]
  nlinarith [Real.add_one_le_exp v, sq_nonneg m]

theorem klTerm_zero (m v : ℝ) : 0.5 * (-v + Real.exp (v * 0.5) ^ 2 + m ^ 2 - 1) = 0 ↔ m = 0 ∧ v = 0 := by
  have h : Real.exp (v * 0.5) ^ 2 = Real.exp v := by
    rw [← Real.exp_nat_mul]; congr 1; push_cast; ring
  rw [h]
  constructor
  · intro h0
    by_cases hv : v = 0
    · subst hv
      rw [Real.exp_zero] at h0
      refine ⟨?_, rfl⟩
      have : m ^ 2 = 0 := by linarith
      exact pow_eq_zero_iff (two_ne_zero) |>.mp this
    · exfalso
      have := Real.add_one_lt_exp hv
      nlinarith [sq_nonneg m]
  · rintro ⟨rfl, rfl⟩
    simp

theorem mean_nonneg (l : List ℝ) (h : ∀ a ∈ l, 0 ≤ a) : 0 ≤ mean l :=
  div_nonneg (List.sum_nonneg h) (Nat.cast_nonneg _)

theorem mean_nonpos (l : List ℝ) (h : ∀ a ∈ l, a ≤ 0) : mean l ≤ 0 := by
  have hs : l.sum ≤ 0 := by
    induction l with
    | nil => simp
    | cons a l ih =>
      rw [List.sum_cons]
      have h1 := h a (by simp)
      have h2 := ih (fun b hb => h b (by simp [hb]))
      linarith
  exact div_nonpos_of_nonpos_of_nonneg hs (Nat.cast_nonneg _)

end Irspack.MultVAE
