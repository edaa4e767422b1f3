import Mathlib.LinearAlgebra.Dimension.Constructions
import Verif.Proofs.IalsGram

/-! # The conjugate-gradient loop in exact arithmetic -/

namespace Irspack.Ials

open Matrix

variable {K : Nat}

/-- the variables of the loop -/
structure CgState (K : Nat) where
  x : Vec K
  r : Vec K
  p : Vec K

/-- one pass through the loop body, without the exits -/
noncomputable def CgState.next (A : Matrix (Fin K) (Fin K) ℝ) (s : CgState K) : CgState K :=
  let alpha := s.r ⬝ᵥ s.r / (s.p ⬝ᵥ A.mulVec s.p)
  let r' := s.r - alpha • A.mulVec s.p
  ⟨s.x + alpha • s.p, r', r' + (r' ⬝ᵥ r' / s.r ⬝ᵥ s.r) • s.p⟩

/-- the states of the loop, started at `x₀`, if it never exits -/
noncomputable def cgSeq (A : Matrix (Fin K) (Fin K) ℝ) (b x₀ : Vec K) : Nat → CgState K
  | 0 => ⟨x₀, b - A.mulVec x₀, b - A.mulVec x₀⟩
  | n + 1 => (cgSeq A b x₀ n).next A

section
variable (A : Matrix (Fin K) (Fin K) ℝ) (b x₀ : Vec K)

/-- the loop body may be entered in state `i` -/
def CgRuns (i : Nat) : Prop :=
  (cgSeq A b x₀ i).r ⬝ᵥ (cgSeq A b x₀ i).r ≠ 0 ∧
    0 < (cgSeq A b x₀ i).p ⬝ᵥ A.mulVec (cgSeq A b x₀ i).p

theorem cgSeq_residual (n : Nat) : (cgSeq A b x₀ n).r = b - A.mulVec (cgSeq A b x₀ n).x := by
  induction n with
  | zero => rfl
  | succ n ih =>
    simp only [cgSeq, CgState.next, Matrix.mulVec_add, Matrix.mulVec_smul, ih]
    abel

theorem cgSeq_r_succ (n : Nat) : (cgSeq A b x₀ (n + 1)).r = (cgSeq A b x₀ n).r -
    ((cgSeq A b x₀ n).r ⬝ᵥ (cgSeq A b x₀ n).r /
      ((cgSeq A b x₀ n).p ⬝ᵥ A.mulVec (cgSeq A b x₀ n).p)) • A.mulVec (cgSeq A b x₀ n).p := rfl

theorem cgSeq_x_succ (n : Nat) : (cgSeq A b x₀ (n + 1)).x = (cgSeq A b x₀ n).x +
    ((cgSeq A b x₀ n).r ⬝ᵥ (cgSeq A b x₀ n).r /
      ((cgSeq A b x₀ n).p ⬝ᵥ A.mulVec (cgSeq A b x₀ n).p)) • (cgSeq A b x₀ n).p := rfl

theorem cgSeq_p_succ (n : Nat) : (cgSeq A b x₀ (n + 1)).p = (cgSeq A b x₀ (n + 1)).r +
    ((cgSeq A b x₀ (n + 1)).r ⬝ᵥ (cgSeq A b x₀ (n + 1)).r /
      (cgSeq A b x₀ n).r ⬝ᵥ (cgSeq A b x₀ n).r) • (cgSeq A b x₀ n).p := rfl

/-- `r · p = r · r` in every state that is reached -/
theorem cgSeq_rp (n : Nat) (h : ∀ i, i < n → CgRuns A b x₀ i) :
    (cgSeq A b x₀ n).r ⬝ᵥ (cgSeq A b x₀ n).p = (cgSeq A b x₀ n).r ⬝ᵥ (cgSeq A b x₀ n).r := by
  induction n with
  | zero => rfl
  | succ n ih =>
    have ih := ih (fun i hi => h i (by omega))
    have hn := h n (by omega)
    have h0 : (cgSeq A b x₀ (n + 1)).r ⬝ᵥ (cgSeq A b x₀ n).p = 0 := by
      rw [cgSeq_r_succ, sub_dotProduct, smul_dotProduct, smul_eq_mul, ih,
        dotProduct_comm (A.mulVec _), div_mul_cancel₀ _ hn.2.ne', sub_self]
    rw [cgSeq_p_succ, dotProduct_add, dotProduct_smul, h0, smul_zero, add_zero]

/-- The three orthogonality relations of conjugate gradients. -/
theorem cgSeq_orthogonal (hA : ∀ i j, A i j = A j i) (n : Nat) (h : ∀ i, i < n → CgRuns A b x₀ i) :
    ∀ i, i < n →
      (cgSeq A b x₀ n).r ⬝ᵥ (cgSeq A b x₀ i).p = 0 ∧
      (cgSeq A b x₀ n).r ⬝ᵥ (cgSeq A b x₀ i).r = 0 ∧
      (cgSeq A b x₀ n).p ⬝ᵥ A.mulVec (cgSeq A b x₀ i).p = 0 := by
  induction n with
  | zero => intro i hi; omega
  | succ n ih =>
    have hrun : ∀ i, i < n → CgRuns A b x₀ i := fun i hi => h i (by omega)
    have ih := ih hrun
    have hn := h n (by omega)
    have hrp := cgSeq_rp A b x₀ n hrun
    -- r_{n+1} · p_i = 0
    have h1 : ∀ i, i < n + 1 → (cgSeq A b x₀ (n + 1)).r ⬝ᵥ (cgSeq A b x₀ i).p = 0 := by
      intro i hi
      rw [cgSeq_r_succ, sub_dotProduct, smul_dotProduct, smul_eq_mul, dotProduct_comm (A.mulVec _)]
      rcases Nat.lt_succ_iff_lt_or_eq.mp hi with hi | rfl
      · rw [(ih i hi).1, dot_symm hA (cgSeq A b x₀ i).p, (ih i hi).2.2, mul_zero, sub_zero]
      · rw [hrp, div_mul_cancel₀ _ hn.2.ne', sub_self]
    -- r_{n+1} · r_i = 0
    have h2 : ∀ i, i < n + 1 → (cgSeq A b x₀ (n + 1)).r ⬝ᵥ (cgSeq A b x₀ i).r = 0 := by
      intro i hi
      cases i with
      | zero => exact h1 0 hi
      | succ i =>
        have h3 : (cgSeq A b x₀ (i + 1)).r = (cgSeq A b x₀ (i + 1)).p -
            ((cgSeq A b x₀ (i + 1)).r ⬝ᵥ (cgSeq A b x₀ (i + 1)).r /
              (cgSeq A b x₀ i).r ⬝ᵥ (cgSeq A b x₀ i).r) • (cgSeq A b x₀ i).p := by
          rw [cgSeq_p_succ, add_sub_cancel_right]
        rw [h3, dotProduct_sub, dotProduct_smul, h1 (i + 1) hi, h1 i (by omega), smul_zero, sub_zero]
    -- A p_i in terms of residuals
    have hAp : ∀ i, i < n + 1 → ∀ y : Vec K, y ⬝ᵥ A.mulVec (cgSeq A b x₀ i).p =
        (y ⬝ᵥ (cgSeq A b x₀ i).r - y ⬝ᵥ (cgSeq A b x₀ (i + 1)).r) *
          ((cgSeq A b x₀ i).p ⬝ᵥ A.mulVec (cgSeq A b x₀ i).p / (cgSeq A b x₀ i).r ⬝ᵥ (cgSeq A b x₀ i).r) := by
      intro i hi y
      have hi' := h i hi
      rw [cgSeq_r_succ, dotProduct_sub, dotProduct_smul, smul_eq_mul, sub_sub_cancel]
      have h4 := hi'.1
      have h5 := hi'.2.ne'
      field_simp
    refine fun i hi => ⟨h1 i hi, h2 i hi, ?_⟩
    rw [cgSeq_p_succ, add_dotProduct, smul_dotProduct, smul_eq_mul]
    rcases Nat.lt_succ_iff_lt_or_eq.mp hi with hi' | rfl
    · rw [(ih i hi').2.2, mul_zero, add_zero, hAp i hi, h2 i hi, h2 (i + 1) (by omega), sub_zero,
        zero_mul]
    · rw [hAp i hi, h2 i hi]
      have h4 := hn.1
      have h5 := hn.2.ne'
      field_simp
      ring

/-- Each step of the loop decreases the quadratic function. -/
theorem cgSeq_quad (hA : ∀ i j, A i j = A j i) (n : Nat) (h : ∀ i, i ≤ n → CgRuns A b x₀ i) :
    quad A b (cgSeq A b x₀ (n + 1)).x = quad A b (cgSeq A b x₀ n).x -
      ((cgSeq A b x₀ n).r ⬝ᵥ (cgSeq A b x₀ n).r) ^ 2 /
        ((cgSeq A b x₀ n).p ⬝ᵥ A.mulVec (cgSeq A b x₀ n).p) := by
  have hn := h n le_rfl
  have hrp := cgSeq_rp A b x₀ n (fun i hi => h i (by omega))
  rw [cgSeq_x_succ, quad_add hA, ← cgSeq_residual, smul_dotProduct, smul_dotProduct,
    Matrix.mulVec_smul, dotProduct_smul, dotProduct_comm (cgSeq A b x₀ n).p (cgSeq A b x₀ n).r, hrp]
  simp only [smul_eq_mul]
  have h5 := hn.2.ne'
  field_simp
  ring

theorem cgSeq_quad_le (hA : ∀ i j, A i j = A j i) (m n : Nat) (hmn : m ≤ n)
    (h : ∀ i, i < n → CgRuns A b x₀ i) :
    quad A b (cgSeq A b x₀ n).x ≤ quad A b (cgSeq A b x₀ m).x := by
  induction n with
  | zero => rw [Nat.le_zero.mp hmn]
  | succ n ih =>
    rcases Nat.lt_or_ge m (n + 1) with hlt | hge
    · have h1 := ih (by omega) (fun i hi => h i (by omega))
      have h2 := cgSeq_quad A b x₀ hA n (fun i hi => h i (by omega))
      have h3 := (h n (by omega)).2
      have : 0 ≤ ((cgSeq A b x₀ n).r ⬝ᵥ (cgSeq A b x₀ n).r) ^ 2 /
        ((cgSeq A b x₀ n).p ⬝ᵥ A.mulVec (cgSeq A b x₀ n).p) := div_nonneg (sq_nonneg _) h3.le
      linarith
    · rw [show m = n + 1 by omega]

/-- What the loop returns: the state in which the first exit was taken. -/
theorem cgLoop_ok (eps : ℝ) (heps : 0 ≤ eps) (n : Nat) : ∀ (k : Nat) (y : Vec K),
    cgLoop A.mulVec eps n (cgSeq A b x₀ k).x (cgSeq A b x₀ k).r (cgSeq A b x₀ k).p = .ok y →
    ∃ j, k ≤ j ∧ j ≤ k + n ∧ y = (cgSeq A b x₀ j).x ∧
      (∀ i, k ≤ i → i < j → CgRuns A b x₀ i ∧
        eps < (cgSeq A b x₀ i).r ⬝ᵥ (cgSeq A b x₀ i).r) ∧
      ((cgSeq A b x₀ j).r ⬝ᵥ (cgSeq A b x₀ j).r ≤ eps ∨ j = k + n) := by
  induction n with
  | zero =>
    intro k y h
    rw [cgLoop] at h
    cases h
    exact ⟨k, le_rfl, by omega, rfl, fun i h1 h2 => by omega, Or.inr rfl⟩
  | succ n ih =>
    intro k y h
    rw [cgLoop] at h
    simp only at h
    by_cases h1 : (cgSeq A b x₀ k).r ⬝ᵥ (cgSeq A b x₀ k).r ≤ eps
    · rw [if_pos h1] at h
      cases h
      exact ⟨k, le_rfl, by omega, rfl, fun i h1 h2 => by omega, Or.inl h1⟩
    · rw [if_neg h1] at h
      have h1' := not_le.mp h1
      by_cases h2 : 0 < (cgSeq A b x₀ k).p ⬝ᵥ A.mulVec (cgSeq A b x₀ k).p
      · rw [if_neg (not_not.mpr h2)] at h
        have hk : CgRuns A b x₀ k ∧ eps < (cgSeq A b x₀ k).r ⬝ᵥ (cgSeq A b x₀ k).r :=
          ⟨⟨(lt_of_le_of_lt heps h1').ne', h2⟩, h1'⟩
        rw [← cgSeq_r_succ, ← cgSeq_x_succ] at h
        by_cases h3 : (cgSeq A b x₀ (k + 1)).r ⬝ᵥ (cgSeq A b x₀ (k + 1)).r ≤ eps
        · rw [if_pos h3] at h
          cases h
          refine ⟨k + 1, by omega, by omega, rfl, fun i h1 h2 => ?_, Or.inl h3⟩
          rw [show i = k by omega]
          exact hk
        · rw [if_neg h3, ← cgSeq_p_succ] at h
          obtain ⟨j, hj1, hj2, hj3, hj4, hj5⟩ := ih (k + 1) y h
          refine ⟨j, by omega, by omega, hj3, fun i hi1 hi2 => ?_, ?_⟩
          · rcases Nat.eq_or_lt_of_le hi1 with rfl | hlt
            · exact hk
            · exact hj4 i hlt hi2
          · rcases hj5 with h6 | h6
            · exact Or.inl h6
            · exact Or.inr (by omega)
      · rw [if_pos h2] at h
        cases h

/-- The loop only throws when it meets a direction of non-positive curvature. -/
theorem cgLoop_error (eps : ℝ) (heps : 0 ≤ eps) (n : Nat) : ∀ (k : Nat) (e : Err),
    (∀ i, i < k → CgRuns A b x₀ i) →
    cgLoop A.mulVec eps n (cgSeq A b x₀ k).x (cgSeq A b x₀ k).r (cgSeq A b x₀ k).p = .error e →
    e = .runtimeError ∧ ∃ j, k ≤ j ∧ (∀ i, i < j → CgRuns A b x₀ i) ∧
      0 < (cgSeq A b x₀ j).r ⬝ᵥ (cgSeq A b x₀ j).r ∧
      ¬ 0 < (cgSeq A b x₀ j).p ⬝ᵥ A.mulVec (cgSeq A b x₀ j).p := by
  induction n with
  | zero => intro k e _ h; rw [cgLoop] at h; cases h
  | succ n ih =>
    intro k e hruns h
    rw [cgLoop] at h
    simp only at h
    by_cases h1 : (cgSeq A b x₀ k).r ⬝ᵥ (cgSeq A b x₀ k).r ≤ eps
    · rw [if_pos h1] at h; cases h
    · rw [if_neg h1] at h
      have h1' := not_le.mp h1
      have h0 := lt_of_le_of_lt heps h1'
      by_cases h2 : 0 < (cgSeq A b x₀ k).p ⬝ᵥ A.mulVec (cgSeq A b x₀ k).p
      · rw [if_neg (not_not.mpr h2)] at h
        rw [← cgSeq_r_succ, ← cgSeq_x_succ] at h
        by_cases h3 : (cgSeq A b x₀ (k + 1)).r ⬝ᵥ (cgSeq A b x₀ (k + 1)).r ≤ eps
        · rw [if_pos h3] at h; cases h
        · rw [if_neg h3, ← cgSeq_p_succ] at h
          have hruns' : ∀ i, i < k + 1 → CgRuns A b x₀ i := by
            intro i hi
            rcases Nat.lt_succ_iff_lt_or_eq.mp hi with hi | rfl
            · exact hruns i hi
            · exact ⟨h0.ne', h2⟩
          obtain ⟨he, j, hj1, hj2⟩ := ih (k + 1) e hruns' h
          exact ⟨he, j, by omega, hj2⟩
      · rw [if_pos h2] at h
        cases h
        exact ⟨rfl, k, le_rfl, hruns, h0, h2⟩

end

/-- More than `K` non-zero vectors of dimension `K` cannot be mutually orthogonal. -/
theorem orthogonal_card (n : Nat) (v : Nat → Vec K) (h0 : ∀ i, i < n → v i ⬝ᵥ v i ≠ 0)
    (horth : ∀ i j, i < n → j < i → v i ⬝ᵥ v j = 0) : n ≤ K := by
  have horth' : ∀ i j : Fin n, i ≠ j → v i ⬝ᵥ v j = 0 := by
    intro i j hij
    rcases lt_or_gt_of_ne (fun e => hij (Fin.ext e) : i.val ≠ j.val) with h | h
    · rw [dotProduct_comm]; exact horth j i j.isLt h
    · exact horth i j i.isLt h
  have hli : LinearIndependent ℝ (fun i : Fin n => v i) := by
    rw [Fintype.linearIndependent_iff]
    intro g hg i
    have h1 : v i ⬝ᵥ (∑ j : Fin n, g j • v j) = 0 := by rw [hg, dotProduct_zero]
    rw [dotProduct_sum] at h1
    have h2 : ∑ j : Fin n, v i ⬝ᵥ (g j • v j) = g i * (v i ⬝ᵥ v i) := by
      rw [Finset.sum_eq_single i]
      · rw [dotProduct_smul, smul_eq_mul]
      · intro j _ hj
        rw [dotProduct_smul, horth' i j (fun e => hj e.symm), smul_zero]
      · intro h; exact absurd (Finset.mem_univ i) h
    rw [h2] at h1
    exact (mul_eq_zero.mp h1).resolve_right (h0 i i.isLt)
  have := hli.fintype_card_le_finrank
  simpa using this

/-- With at least `K` steps the returned vector solves the system up to the threshold. -/
theorem cgLoop_exact (A : Matrix (Fin K) (Fin K) ℝ) (hA : ∀ i j, A i j = A j i) (b x₀ : Vec K)
    (eps : ℝ) (heps : 0 ≤ eps) (n : Nat) (hn : K ≤ n) (y : Vec K)
    (h : cgLoop A.mulVec eps n x₀ (b - A.mulVec x₀) (b - A.mulVec x₀) = .ok y) :
    (b - A.mulVec y) ⬝ᵥ (b - A.mulVec y) ≤ eps := by
  obtain ⟨j, _, hj, rfl, hruns, hend⟩ := cgLoop_ok A b x₀ eps heps n 0 y h
  rw [← cgSeq_residual]
  rcases hend with h1 | h1
  · exact h1
  · by_cases h0 : (cgSeq A b x₀ j).r ⬝ᵥ (cgSeq A b x₀ j).r = 0
    · rw [h0]; exact heps
    · exfalso
      have hr : ∀ i, i < j → CgRuns A b x₀ i := fun i hi => (hruns i (Nat.zero_le i) hi).1
      have := orthogonal_card (j + 1) (fun i => (cgSeq A b x₀ i).r)
        (fun i hi => by
          rcases Nat.lt_succ_iff_lt_or_eq.mp hi with hi | rfl
          · exact (hr i hi).1
          · exact h0)
        (fun i k hi hk => (cgSeq_orthogonal A b x₀ hA i (fun l hl => hr l (by omega)) k hk).2.1)
      omega

/-- The loop never increases the quadratic function. -/
theorem cgLoop_descent (A : Matrix (Fin K) (Fin K) ℝ) (hA : ∀ i j, A i j = A j i) (b x₀ : Vec K)
    (eps : ℝ) (heps : 0 ≤ eps) (n : Nat) (y : Vec K)
    (h : cgLoop A.mulVec eps n x₀ (b - A.mulVec x₀) (b - A.mulVec x₀) = .ok y) :
    quad A b y ≤ quad A b x₀ := by
  obtain ⟨j, hj0, hj, rfl, hruns, hend⟩ := cgLoop_ok A b x₀ eps heps n 0 y h
  exact cgSeq_quad_le A b x₀ hA 0 j hj0 (fun i hi => (hruns i (Nat.zero_le i) hi).1)

/-- More steps are never worse. -/
theorem cgLoop_mono (A : Matrix (Fin K) (Fin K) ℝ) (hA : ∀ i j, A i j = A j i) (b x₀ : Vec K)
    (eps : ℝ) (heps : 0 ≤ eps) (m n : Nat) (hmn : m ≤ n) (y z : Vec K)
    (hm : cgLoop A.mulVec eps m x₀ (b - A.mulVec x₀) (b - A.mulVec x₀) = .ok y)
    (hn : cgLoop A.mulVec eps n x₀ (b - A.mulVec x₀) (b - A.mulVec x₀) = .ok z) :
    quad A b z ≤ quad A b y := by
  obtain ⟨j, hj0, hj, rfl, hruns, hend⟩ := cgLoop_ok A b x₀ eps heps m 0 y hm
  obtain ⟨j', hj0', hj', rfl, hruns', hend'⟩ := cgLoop_ok A b x₀ eps heps n 0 z hn
  apply cgSeq_quad_le A b x₀ hA j j' _ (fun i hi => (hruns' i (Nat.zero_le i) hi).1)
  by_contra hlt
  rw [not_le] at hlt
  rcases hend' with h1 | h1
  · have := (hruns j' (Nat.zero_le _) hlt).2
    linarith
  · omega

/-- On a positive definite system the loop does not throw. -/
theorem cgLoop_total (A : Matrix (Fin K) (Fin K) ℝ) (hpd : PosDef A) (b x₀ : Vec K)
    (eps : ℝ) (heps : 0 ≤ eps) (n : Nat) :
    ∃ y, cgLoop A.mulVec eps n x₀ (b - A.mulVec x₀) (b - A.mulVec x₀) = .ok y := by
  cases h : cgLoop A.mulVec eps n x₀ (b - A.mulVec x₀) (b - A.mulVec x₀) with
  | ok y => exact ⟨y, rfl⟩
  | error e =>
    exfalso
    obtain ⟨_, j, _, hruns, h1, h2⟩ := cgLoop_error A b x₀ eps heps n 0 e
      (fun i hi => by omega) h
    apply h2
    apply hpd
    intro h0
    have := cgSeq_rp A b x₀ j hruns
    rw [h0, dotProduct_zero] at this
    linarith

/-- If the start is not yet a solution up to the threshold, the loop makes progress. -/
theorem cgLoop_progress (A : Matrix (Fin K) (Fin K) ℝ) (hA : ∀ i j, A i j = A j i) (b x₀ : Vec K)
    (eps : ℝ) (heps : 0 ≤ eps) (n : Nat) (hn : 0 < n)
    (h0 : eps < (b - A.mulVec x₀) ⬝ᵥ (b - A.mulVec x₀)) (y : Vec K)
    (h : cgLoop A.mulVec eps n x₀ (b - A.mulVec x₀) (b - A.mulVec x₀) = .ok y) :
    quad A b y < quad A b x₀ := by
  obtain ⟨j, hj0, hj, rfl, hruns, hend⟩ := cgLoop_ok A b x₀ eps heps n 0 y h
  have hj1 : 0 < j := by
    rcases hend with h1 | h1
    · rcases Nat.eq_zero_or_pos j with rfl | h2
      · exact absurd h1 (not_le.mpr h0)
      · exact h2
    · omega
  have h0r := (hruns 0 le_rfl hj1).1
  have h1 := cgSeq_quad_le A b x₀ hA 1 j hj1 (fun i hi => (hruns i (Nat.zero_le i) hi).1)
  have h2 := cgSeq_quad A b x₀ hA 0 (fun i hi => by rw [Nat.le_zero.mp hi]; exact h0r)
  have h3 : 0 < ((cgSeq A b x₀ 0).r ⬝ᵥ (cgSeq A b x₀ 0).r) ^ 2 /
      ((cgSeq A b x₀ 0).p ⬝ᵥ A.mulVec (cgSeq A b x₀ 0).p) :=
    div_pos (pow_pos (lt_of_le_of_lt heps h0) 2) h0r.2
  have h4 : (cgSeq A b x₀ 0).x = x₀ := rfl
  rw [h4] at h2
  linarith

end Irspack.Ials
