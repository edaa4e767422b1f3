import Verif.Proofs.IalsFeatureGain

/-! # Continuity of the feature-aware loss, and joint optimality from separate optimality -/

namespace Irspack.Ials

open Spec.Ials Filter Topology

variable {K : Nat}

theorem predicted_mix (nF : Nat) (F : Nat → Nat → ℝ) (W W' : Nat → Vec K) (t : ℝ) (r : Nat) :
    predicted nF F (fun f => t • W' f + (1 - t) • W f) r =
      t • predicted nF F W' r + (1 - t) • predicted nF F W r := by
  funext k
  unfold predicted
  simp only [Pi.add_apply, Pi.smul_apply, smul_eq_mul]
  rw [Finset.mul_sum, Finset.mul_sum, ← Finset.sum_add_distrib]
  exact Finset.sum_congr rfl (fun f _ => by ring)

theorem dataTerm_mix {p : Params} {D : Data} (h : Convex p D) (A A' B : Nat → Vec K) (t : ℝ) (ht : 0 ≤ t)
    (ht1 : t ≤ 1) : dataTerm p D (fun u => t • A' u + (1 - t) • A u) B ≤
      t * dataTerm p D A' B + (1 - t) * dataTerm p D A B := by
  simp only [dataTerm_eq]
  rw [Finset.mul_sum, Finset.mul_sum, ← Finset.sum_add_distrib]
  refine Finset.sum_le_sum (fun u _ => ?_)
  rw [Finset.mul_sum, Finset.mul_sum, ← Finset.sum_add_distrib]
  refine Finset.sum_le_sum (fun i _ => ?_)
  rw [score_mix]
  exact pairTerm_convex h u i _ _ t ht ht1

theorem normSq_mix_le (x y : Vec K) (t : ℝ) (ht : 0 ≤ t) (ht1 : t ≤ 1) :
    normSq (t • x + (1 - t) • y) ≤ t * normSq x + (1 - t) * normSq y := by
  rw [normSq_mix]
  have := mul_nonneg (mul_nonneg ht (sub_nonneg.mpr ht1)) (normSq_nonneg (x - y))
  linarith

theorem sideLoss_mix {n nF : Nat} {w : Nat → ℝ} (hw : ∀ r, 0 ≤ w r) (F : Nat → Nat → ℝ) {lam : ℝ}
    (hl : nF ≠ 0 → 0 < lam) (A A' W W' : Nat → Vec K) (t : ℝ) (ht : 0 ≤ t) (ht1 : t ≤ 1) :
    sideLoss n nF w F lam (fun u => t • A' u + (1 - t) • A u) (fun f => t • W' f + (1 - t) • W f) ≤
      t * sideLoss n nF w F lam A' W' + (1 - t) * sideLoss n nF w F lam A W := by
  unfold sideLoss
  have h1 : ∑ r ∈ Finset.range n, w r * normSq (t • A' r + (1 - t) • A r -
        predicted nF F (fun f => t • W' f + (1 - t) • W f) r) ≤
      t * ∑ r ∈ Finset.range n, w r * normSq (A' r - predicted nF F W' r) +
      (1 - t) * ∑ r ∈ Finset.range n, w r * normSq (A r - predicted nF F W r) := by
    rw [Finset.mul_sum, Finset.mul_sum, ← Finset.sum_add_distrib]
    refine Finset.sum_le_sum (fun r _ => ?_)
    rw [predicted_mix]
    have e : t • A' r + (1 - t) • A r - (t • predicted nF F W' r + (1 - t) • predicted nF F W r) =
        t • (A' r - predicted nF F W' r) + (1 - t) • (A r - predicted nF F W r) := by
      funext k
      simp only [Pi.add_apply, Pi.sub_apply, Pi.smul_apply, smul_eq_mul]
      ring
    rw [e]
    have := mul_le_mul_of_nonneg_left (normSq_mix_le (A' r - predicted nF F W' r) (A r - predicted nF F W r)
      t ht ht1) (hw r)
    linarith
  have h2 : lam * weightNormSq nF (fun f => t • W' f + (1 - t) • W f) ≤
      t * (lam * weightNormSq nF W') + (1 - t) * (lam * weightNormSq nF W) := by
    by_cases h0 : nF = 0
    · subst h0; simp [weightNormSq]
    · have : weightNormSq nF (fun f => t • W' f + (1 - t) • W f) ≤
          t * weightNormSq nF W' + (1 - t) * weightNormSq nF W := by
        unfold weightNormSq
        rw [Finset.mul_sum, Finset.mul_sum, ← Finset.sum_add_distrib]
        exact Finset.sum_le_sum (fun f _ => normSq_mix_le _ _ t ht ht1)
      have := mul_le_mul_of_nonneg_left this (hl h0).le
      linarith
  linarith

/-- moving embeddings and weights together differs from moving them separately by a multiple of `t²` -/
theorem sideLoss_cross (n nF : Nat) (w : Nat → ℝ) (F : Nat → Nat → ℝ) (lam : ℝ)
    (A A' W W' : Nat → Vec K) : ∃ c : ℝ, ∀ t : ℝ,
    sideLoss n nF w F lam (fun u => t • A' u + (1 - t) • A u) (fun f => t • W' f + (1 - t) • W f) =
      sideLoss n nF w F lam (fun u => t • A' u + (1 - t) • A u) W +
      sideLoss n nF w F lam A (fun f => t • W' f + (1 - t) • W f) -
      sideLoss n nF w F lam A W + t ^ 2 * c := by
  refine ⟨∑ r ∈ Finset.range n, w r * ∑ k, -2 * ((A' r k - A r k) *
    (predicted nF F W' r k - predicted nF F W r k)), fun t => ?_⟩
  unfold sideLoss
  have key : ∑ r ∈ Finset.range n, w r * normSq (t • A' r + (1 - t) • A r -
        predicted nF F (fun f => t • W' f + (1 - t) • W f) r) =
      ∑ r ∈ Finset.range n, w r * normSq (t • A' r + (1 - t) • A r - predicted nF F W r) +
      ∑ r ∈ Finset.range n, w r * normSq (A r - predicted nF F (fun f => t • W' f + (1 - t) • W f) r) -
      ∑ r ∈ Finset.range n, w r * normSq (A r - predicted nF F W r) +
      t ^ 2 * ∑ r ∈ Finset.range n, w r * ∑ k, -2 * ((A' r k - A r k) *
        (predicted nF F W' r k - predicted nF F W r k)) := by
    rw [Finset.mul_sum, ← Finset.sum_add_distrib, ← Finset.sum_sub_distrib, ← Finset.sum_add_distrib]
    refine Finset.sum_congr rfl (fun r _ => ?_)
    rw [predicted_mix, mul_left_comm, ← mul_add, ← mul_sub, ← mul_add]
    congr 1
    unfold normSq
    rw [Finset.mul_sum, ← Finset.sum_add_distrib, ← Finset.sum_sub_distrib, ← Finset.sum_add_distrib]
    refine Finset.sum_congr rfl (fun k _ => ?_)
    simp only [Pi.add_apply, Pi.sub_apply, Pi.smul_apply, smul_eq_mul]
    ring
  rw [key]
  ring

/-- users and weights that are each the best for the other are the best together -/
theorem joint_of_separate {p : Params} {D : Data} (h : Convex p D) (lu li : ℝ) (nU nI : Nat)
    (FU FI : Nat → Nat → ℝ) (WU WI A B : Nat → Vec K) (hu : nU ≠ 0 → 0 < lu)
    (hA : ∀ A', featureLoss p D lu li nU FU WU nI FI WI A B ≤ featureLoss p D lu li nU FU WU nI FI WI A' B)
    (hW : ∀ W', featureLoss p D lu li nU FU WU nI FI WI A B ≤ featureLoss p D lu li nU FU W' nI FI WI A B)
    (W' A' : Nat → Vec K) :
    featureLoss p D lu li nU FU WU nI FI WI A B ≤ featureLoss p D lu li nU FU W' nI FI WI A' B := by
  obtain ⟨c, hc⟩ := sideLoss_cross D.U nU (userWeight p D) FU lu A A' WU W'
  set d := featureLoss p D lu li nU FU W' nI FI WI A' B - featureLoss p D lu li nU FU WU nI FI WI A B with hd
  have key : ∀ t : ℝ, 0 < t → t ≤ 1 → t * (1 / 2 * c) ≤ d := by
    intro t ht ht1
    have h1 := sideLoss_mix (n := D.U) h.uw FU hu A A' WU W' t ht.le ht1
    have h2 := dataTerm_mix h A A' B t ht.le ht1
    have h3 := hc t
    have h4 := hA (fun u => t • A' u + (1 - t) • A u)
    have h5 := hW (fun f => t • W' f + (1 - t) • WU f)
    have h6 : t * (t * (1 / 2 * c)) ≤ t * d := by
      rw [hd]
      simp only [featureLoss_user] at h4 h5 ⊢
      nlinarith
    exact le_of_mul_le_mul_left h6 ht
  by_contra hlt
  push Not at hlt
  have hd0 : d < 0 := by rw [hd]; linarith
  have h1 := key 1 one_pos le_rfl
  have hc0 : 1 / 2 * c < 0 := by linarith
  have ht0 : 0 < d / (2 * (1 / 2 * c)) := div_pos_of_neg_of_neg hd0 (by linarith)
  have h2 := key (d / (2 * (1 / 2 * c))) ht0 (by
    rw [div_le_one_of_neg (by linarith)]
    linarith)
  have h3 : d / (2 * (1 / 2 * c)) * (1 / 2 * c) = d / 2 := by
    rw [div_mul_eq_mul_div, mul_div_mul_right _ _ hc0.ne]
  linarith

theorem normSq_tendsto {V : Nat → Vec K} {v : Vec K} (h : ∀ k, Tendsto (fun n => V n k) atTop (𝓝 (v k))) :
    Tendsto (fun n => normSq (V n)) atTop (𝓝 (normSq v)) :=
  tendsto_finsetSum _ (fun k _ => (h k).pow 2)

theorem predicted_tendsto {nF : Nat} (F : Nat → Nat → ℝ) {W : Nat → Nat → Vec K} {W' : Nat → Vec K}
    (h : ∀ f < nF, ∀ k, Tendsto (fun n => W n f k) atTop (𝓝 (W' f k))) (r : Nat) (k : Fin K) :
    Tendsto (fun n => predicted nF F (W n) r k) atTop (𝓝 (predicted nF F W' r k)) :=
  tendsto_finsetSum _ (fun f hf => (h f (Finset.mem_range.mp hf) k).const_mul _)

theorem featureLoss_tendsto (p : Params) (D : Data) (lu li : ℝ) {nU nI : Nat} (FU FI : Nat → Nat → ℝ)
    {WU WI A B : Nat → Nat → Vec K} {WU' WI' A' B' : Nat → Vec K}
    (hWU : ∀ f < nU, ∀ k, Tendsto (fun n => WU n f k) atTop (𝓝 (WU' f k)))
    (hWI : ∀ f < nI, ∀ k, Tendsto (fun n => WI n f k) atTop (𝓝 (WI' f k)))
    (hA : ∀ u < D.U, ∀ k, Tendsto (fun n => A n u k) atTop (𝓝 (A' u k)))
    (hB : ∀ i < D.I, ∀ k, Tendsto (fun n => B n i k) atTop (𝓝 (B' i k))) :
    Tendsto (fun n => featureLoss p D lu li nU FU (WU n) nI FI (WI n) (A n) (B n)) atTop
      (𝓝 (featureLoss p D lu li nU FU WU' nI FI WI' A' B')) := by
  have hpair : ∀ u i, Continuous (pairTerm p D u i) := by
    intro u i
    unfold pairTerm
    by_cases hs : D.S u i
    · simp only [hs, if_true]; fun_prop
    · simp only [hs, if_false]; fun_prop
  unfold featureLoss priorLoss
  simp only [dataTerm_eq]
  refine Tendsto.add (Tendsto.add (Tendsto.const_mul _ ?_) (Tendsto.const_mul _ (Tendsto.add ?_ ?_)))
    (Tendsto.const_mul _ (Tendsto.add (Tendsto.const_mul _ ?_) (Tendsto.const_mul _ ?_)))
  · refine tendsto_finsetSum _ (fun u hu => tendsto_finsetSum _ (fun i hi => ?_))
    refine ((hpair u i).tendsto _).comp ?_
    exact tendsto_finsetSum _ (fun k _ => (hA u (Finset.mem_range.mp hu) k).mul
      (hB i (Finset.mem_range.mp hi) k))
  · exact tendsto_finsetSum _ (fun u hu => (normSq_tendsto (fun k =>
      (hA u (Finset.mem_range.mp hu) k).sub (predicted_tendsto FU hWU u k))).const_mul _)
  · exact tendsto_finsetSum _ (fun u hu => (normSq_tendsto (fun k =>
      (hB u (Finset.mem_range.mp hu) k).sub (predicted_tendsto FI hWI u k))).const_mul _)
  · exact tendsto_finsetSum _ (fun f hf => normSq_tendsto (hWU f (Finset.mem_range.mp hf)))
  · exact tendsto_finsetSum _ (fun f hf => normSq_tendsto (hWI f (Finset.mem_range.mp hf)))

end Irspack.Ials
