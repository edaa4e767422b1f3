import Verif.Proofs.Slim
import Mathlib.Algebra.Order.BigOperators.Ring.Finset
import Mathlib.Algebra.BigOperators.Field

/-! Helper lemmas for C37, C38: how far the stored residuals can be from the true ones. -/

namespace Irspack.Slim
open Spec.Slim

variable {K : Type} [Field K] [LinearOrder K]

/-- The update of feature `f` changes a coefficient of the block but is left out of the residuals,
because every change is within the tolerance of `isZero` (util.hpp:351-359). -/
def Drops (cfg : Config K) (X : CSC K) (begin : Nat) (s : Block K) (f : Nat) : Prop :=
  (∀ k, k < cfg.blockSize → |change cfg X begin s f k| ≤ cfg.prec) ∧
    ∃ k, k < cfg.blockSize ∧ change cfg X begin s f k ≠ 0

open Classical in
/-- How many of the visits were left out of the residuals. -/
noncomputable def dropped (cfg : Config K) (X : CSC K) (begin : Nat) (visited : List Nat) : Nat :=
  (visited.foldl (fun p f => (featureStep cfg X begin p.1 f,
    p.2 + if Drops cfg X begin p.1 f then 1 else 0)) (initBlock X cfg.blockSize begin, 0)).2

theorem dropped_fst (cfg : Config K) (X : CSC K) (begin : Nat) (v : List Nat) (s : Block K) (n : Nat)
    (st : Block K → Nat → Nat → Nat) :
    (v.foldl (fun p f => (featureStep cfg X begin p.1 f, st p.1 f p.2)) (s, n)).1 =
      v.foldl (featureStep cfg X begin) s := by
  induction v generalizing s n with
  | nil => rfl
  | cons f v ih => simp only [List.foldl_cons]; exact ih _ _

open Classical in
theorem dropped_append (cfg : Config K) (X : CSC K) (begin : Nat) (v : List Nat) (f : Nat) :
    dropped cfg X begin (v ++ [f]) = dropped cfg X begin v +
      if Drops cfg X begin (visit cfg X begin v) f then 1 else 0 := by
  unfold dropped
  rw [List.foldl_append, List.foldl_cons, List.foldl_nil]
  have := dropped_fst cfg X begin v (initBlock X cfg.blockSize begin) 0
    (fun s f n => n + if Drops cfg X begin s f then 1 else 0)
  simp only at this ⊢
  rw [this]
  rfl

theorem dropped_le_length (cfg : Config K) (X : CSC K) (begin : Nat) (v : List Nat) :
    dropped cfg X begin v ≤ v.length := by
  induction v using List.reverseRecOn with
  | nil => simp [dropped]
  | append_singleton v f ih =>
    rw [dropped_append, List.length_append, List.length_singleton]
    split <;> omega

theorem dropped_mono (cfg : Config K) (X : CSC K) (begin : Nat) (v w : List Nat) :
    dropped cfg X begin v ≤ dropped cfg X begin (v ++ w) := by
  induction w using List.reverseRecOn with
  | nil => simp
  | append_singleton w f ih =>
    rw [← List.append_assoc, dropped_append]
    omega

/-- `Lossless` is the case of no dropped visit -/
theorem lossless_iff_dropped [IsStrictOrderedRing K] (cfg : Config K) (X : CSC K) (begin : Nat)
    (v : List Nat) : Lossless cfg X begin v ↔ dropped cfg X begin v = 0 := by
  have hd : ∀ s f, NotLost cfg X begin s f ↔ ¬ Drops cfg X begin s f := by
    intro s f
    unfold NotLost Drops
    constructor
    · rintro (h | ⟨k, hk, h⟩) ⟨h1, k', hk', h2⟩
      · exact h2 (h k' hk')
      · exact absurd (h1 k hk) (not_le.mpr h)
    · intro h
      by_cases h0 : ∀ k, k < cfg.blockSize → change cfg X begin s f k = 0
      · exact Or.inl h0
      · right
        push Not at h0
        by_contra hc
        push Not at hc
        exact h ⟨hc, h0⟩
  induction v using List.reverseRecOn with
  | nil =>
    constructor
    · intro _; rfl
    · intro _ pre f hp
      have := hp.length_le
      simp at this
  | append_singleton v f ih =>
    rw [dropped_append]
    constructor
    · intro h
      have h1 := ih.mp (fun pre g hp => h pre g (hp.trans (List.prefix_append _ _)))
      rw [h1, if_neg ((hd _ _).mp (h v f (List.prefix_refl _)))]
    · intro h
      have h0 : dropped cfg X begin v = 0 := by omega
      have hf : ¬ Drops cfg X begin (visit cfg X begin v) f := by
        intro hdr
        rw [if_pos hdr] at h
        omega
      intro pre g hp
      rcases List.prefix_concat_iff.mp hp with he | hp'
      · obtain ⟨rfl, e⟩ := List.append_inj' he rfl
        rw [List.cons.injEq] at e
        rw [e.1]
        exact (hd _ _).mpr hf
      · exact ih.mpr h0 pre g hp'

variable [IsStrictOrderedRing K]

/-- The stored residuals are the true residuals of slightly different coefficients: those of which
the dropped changes `D` have been taken away. -/
theorem drift_exists (cfg : Config K) (X : CSC K) (hX : Proper X) (begin : Nat) (v : List Nat)
    (hv : ∀ f ∈ v, f < X.cols.length) (k : Nat) (hk : k < cfg.blockSize)
    (hj : begin + k < X.cols.length) :
    ∃ D : Nat → K,
      (∀ u, u < X.rows → (visit cfg X begin v).rem k u =
        ∑ f ∈ Finset.range X.cols.length, X.get u f * ((visit cfg X begin v).coef k f - D f)
          - X.get u (begin + k)) ∧
      ∑ f ∈ Finset.range X.cols.length, |D f| ≤ cfg.prec * dropped cfg X begin v := by
  induction v using List.reverseRecOn with
  | nil =>
    refine ⟨fun _ => 0, ?_, ?_⟩
    · intro u hu
      have := init_consistent X hX cfg.blockSize begin k hk hj u hu
      simpa [visit] using this
    · simp [dropped]
  | append_singleton v f ih =>
    obtain ⟨D, hD, hb⟩ := ih (fun g hg => hv g (by simp [hg]))
    have hf : f < X.cols.length := hv f (by simp)
    rw [visit_append, dropped_append]
    set s := visit cfg X begin v with hs
    have hshift : ∀ (D' : Nat → K) (u : Nat),
        ∑ g ∈ Finset.range X.cols.length, X.get u g * ((featureStep cfg X begin s f).coef k g - D' g)
          = ∑ g ∈ Finset.range X.cols.length, X.get u g * (s.coef k g - D' g)
            + X.get u f * change cfg X begin s f k := by
      intro D' u
      have h1 := sum_update X.cols.length f hf (fun g => X.get u g) (s.coef k) (newCoef cfg X begin s f k)
      simp only [mul_sub, Finset.sum_sub_distrib]
      simp only [featureStep]
      rw [h1]
      unfold change
      ring
    by_cases hz : isZero cfg X begin s f = true
    · by_cases hall : ∀ k, k < cfg.blockSize → change cfg X begin s f k = 0
      · refine ⟨D, ?_, ?_⟩
        · intro u hu
          rw [hshift, hall k hk, mul_zero, add_zero, ← hD u hu]
          simp only [featureStep]
          rw [if_pos hz]
        · rw [if_neg (fun h => by obtain ⟨_, k', hk', hne⟩ := h; exact hne (hall k' hk')), Nat.add_zero]
          exact hb
      · push Not at hall
        have hdr : Drops cfg X begin s f := ⟨(isZero_iff ..).mp hz, hall⟩
        refine ⟨fun g => if g = f then D f + change cfg X begin s f k else D g, ?_, ?_⟩
        · intro u hu
          rw [hshift]
          have h1 := sum_update X.cols.length f hf (fun g => X.get u g) D
            (D f + change cfg X begin s f k)
          have h2 := hD u hu
          simp only [mul_sub, Finset.sum_sub_distrib] at h2 ⊢
          rw [h1]
          simp only [featureStep]
          rw [if_pos hz, h2]
          ring
        · rw [if_pos hdr]
          have hle : ∀ g ∈ Finset.range X.cols.length,
              |if g = f then D f + change cfg X begin s f k else D g| ≤
                |D g| + (if g = f then |change cfg X begin s f k| else 0) := by
            intro g _
            split
            · rename_i e; rw [e]; exact abs_add_le _ _
            · simp
          refine le_trans (Finset.sum_le_sum hle) ?_
          rw [Finset.sum_add_distrib, Finset.sum_ite_eq' (Finset.range X.cols.length) f
            (fun _ => |change cfg X begin s f k|), if_pos (Finset.mem_range.mpr hf)]
          have := hdr.1 k hk
          push_cast
          linarith
    · refine ⟨D, ?_, ?_⟩
      · intro u hu
        rw [hshift]
        simp only [featureStep]
        rw [if_neg hz, rem_update_sum, hD u hu]
        simp only [CSC.get, column]
        ring
      · rw [if_neg (fun h => hz ((isZero_iff ..).mpr h.1)), Nat.add_zero]
        exact hb

/-- inner product of two columns -/
def gram (X : CSC K) (f g : Nat) : K := ∑ u ∈ Finset.range X.rows, X.get u f * X.get u g

theorem gram_abs_le (X : CSC K) (M : K) (hM : ∀ f, f < X.cols.length → colSq X f ≤ M) (f g : Nat)
    (hf : f < X.cols.length) (hg : g < X.cols.length) : |gram X f g| ≤ M := by
  have h1 : |gram X f g| ≤ ∑ u ∈ Finset.range X.rows, (X.get u f * X.get u f + X.get u g * X.get u g) / 2 := by
    refine le_trans (Finset.abs_sum_le_sum_abs _ _) (Finset.sum_le_sum ?_)
    intro u _
    rw [abs_le]
    constructor <;> nlinarith [sq_nonneg (X.get u f + X.get u g), sq_nonneg (X.get u f - X.get u g)]
  have h2 : ∑ u ∈ Finset.range X.rows, (X.get u f * X.get u f + X.get u g * X.get u g) / 2
      = (colSq X f + colSq X g) / 2 := by
    rw [← Finset.sum_div, Finset.sum_add_distrib]; rfl
  have := hM f hf
  have := hM g hg
  linarith

/-- A residual error made of changes `D` moves the gradient of a coordinate by at most this. -/
theorem drift_grad_sq (X : CSC K) (M : K) (hM : ∀ f, f < X.cols.length → colSq X f ≤ M)
    (D : Nat → K) (f : Nat) (S : K) (hD : ∑ g ∈ Finset.range X.cols.length, |D g| ≤ S) :
    (∑ g ∈ Finset.range X.cols.length, gram X f g * D g) ^ 2 ≤ S ^ 2 * M * colSq X f := by
  set T := ∑ g ∈ Finset.range X.cols.length, |D g| with hT
  have hT0 : 0 ≤ T := Finset.sum_nonneg (fun _ _ => abs_nonneg _)
  -- the error vector
  have e1 : ∑ g ∈ Finset.range X.cols.length, gram X f g * D g
      = ∑ u ∈ Finset.range X.rows, X.get u f * ∑ g ∈ Finset.range X.cols.length, X.get u g * D g := by
    unfold gram
    simp only [Finset.sum_mul, Finset.mul_sum]
    rw [Finset.sum_comm]
    exact Finset.sum_congr rfl (fun u _ => Finset.sum_congr rfl (fun g _ => by ring))
  have h1 := Finset.sum_mul_sq_le_sq_mul_sq (Finset.range X.rows) (fun u => X.get u f)
    (fun u => ∑ g ∈ Finset.range X.cols.length, X.get u g * D g)
  have h2 : ∀ u, (∑ g ∈ Finset.range X.cols.length, X.get u g * D g) ^ 2 ≤
      T * ∑ g ∈ Finset.range X.cols.length, |D g| * (X.get u g * X.get u g) := by
    intro u
    have := Finset.sum_sq_le_sum_mul_sum_of_sq_le_mul (Finset.range X.cols.length)
      (r := fun g => X.get u g * D g) (f := fun g => |D g|)
      (g := fun g => |D g| * (X.get u g * X.get u g)) (fun _ _ => abs_nonneg _)
      (fun _ _ => mul_nonneg (abs_nonneg _) (mul_self_nonneg _))
      (fun g _ => le_of_eq <| by
        have := sq_abs (D g)
        calc (X.get u g * D g) ^ 2 = D g ^ 2 * (X.get u g * X.get u g) := by ring
          _ = |D g| ^ 2 * (X.get u g * X.get u g) := by rw [this]
          _ = _ := by ring)
    exact this
  have h3 : ∑ u ∈ Finset.range X.rows, (∑ g ∈ Finset.range X.cols.length, X.get u g * D g) ^ 2 ≤
      T * (T * M) := by
    refine le_trans (Finset.sum_le_sum (fun u _ => h2 u)) ?_
    rw [← Finset.mul_sum, Finset.sum_comm]
    apply mul_le_mul_of_nonneg_left _ hT0
    rw [hT, Finset.sum_mul]
    apply Finset.sum_le_sum
    intro g hg
    rw [← Finset.mul_sum]
    exact mul_le_mul_of_nonneg_left (hM g (Finset.mem_range.mp hg)) (abs_nonneg _)
  have hc : ∑ u ∈ Finset.range X.rows, X.get u f ^ 2 = colSq X f :=
    Finset.sum_congr rfl (fun u _ => by ring)
  rw [e1]
  refine le_trans h1 ?_
  rw [hc]
  have hcs := colSq_nonneg X f
  by_cases hM0 : 0 ≤ M
  · have hTS : T * (T * M) ≤ S ^ 2 * M := by
      have : T ^ 2 ≤ S ^ 2 := pow_le_pow_left₀ hT0 hD 2
      nlinarith
    calc colSq X f * _ ≤ colSq X f * (S ^ 2 * M) :=
          mul_le_mul_of_nonneg_left (le_trans h3 hTS) hcs
      _ = _ := by ring
  · -- then there is no feature at all
    have hno : X.cols.length = 0 := by
      by_contra h
      exact hM0 (le_trans (colSq_nonneg X 0) (hM 0 (Nat.pos_of_ne_zero h)))
    have hget : ∀ u g, X.get u g = 0 := by
      intro u g
      simp [CSC.get, List.getD_eq_getElem?_getD, List.getElem?_eq_none (show X.cols.length ≤ g by omega), SpVec.get]
    have : colSq X f = 0 := by simp [colSq, hget]
    rw [this]; simp

omit [LinearOrder K] [IsStrictOrderedRing K] in
/-- the gradient with true residuals and with stored residuals -/
theorem grad_drift (X : CSC K) (j f : Nat) (b D rem : Nat → K)
    (hrem : ∀ u, u < X.rows → rem u =
      ∑ g ∈ Finset.range X.cols.length, X.get u g * (b g - D g) - X.get u j) :
    grad X (fun u => ∑ g ∈ Finset.range X.cols.length, X.get u g * b g - X.get u j) f =
      grad X rem f + ∑ g ∈ Finset.range X.cols.length, gram X f g * D g := by
  unfold grad gram
  simp only [Finset.sum_mul]
  rw [Finset.sum_comm, ← Finset.sum_add_distrib]
  apply Finset.sum_congr rfl
  intro u hu
  rw [hrem u (Finset.mem_range.mp hu)]
  simp only [mul_sub, Finset.sum_sub_distrib]
  have : ∑ g ∈ Finset.range X.cols.length, X.get u f * X.get u g * D g =
      X.get u f * ∑ g ∈ Finset.range X.cols.length, X.get u g * D g := by
    rw [Finset.mul_sum]; exact Finset.sum_congr rfl (fun g _ => by ring)
  rw [this]
  ring

end Irspack.Slim
