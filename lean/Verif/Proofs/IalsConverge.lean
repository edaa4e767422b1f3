import Verif.Spec.IalsRun
import Verif.Props.IalsStep
import Mathlib.Analysis.SpecificLimits.Basic
import Mathlib.Topology.Sequences

/-! # Strong convexity and continuity of the iALS loss -/

namespace Irspack.Ials

open Spec.Ials Filter Topology

variable {K T : Nat}

/-- what makes the loss convex in each side -/
structure Convex (p : Params) (D : Data) : Prop where
  value : ∀ u i, D.S u i → 0 ≤ D.X u i
  alpha0 : 0 ≤ p.alpha0
  uw : ∀ u, 0 ≤ userWeight p D u
  iw : ∀ i, 0 ≤ itemWeight p D i

theorem pairTerm_convex {p : Params} {D : Data} (h : Convex p D) (u i : Nat) (s s' t : ℝ) (ht : 0 ≤ t)
    (ht1 : t ≤ 1) : pairTerm p D u i (t * s + (1 - t) * s') ≤
      t * pairTerm p D u i s + (1 - t) * pairTerm p D u i s' := by
  have ha := h.alpha0
  have h1 : 0 ≤ t * (1 - t) := mul_nonneg ht (by linarith)
  unfold pairTerm
  by_cases hs : D.S u i
  · have hx := h.value u i hs
    simp only [hs, if_true]
    have := mul_nonneg h1 (mul_nonneg (add_nonneg hx ha) (sq_nonneg (s - s')))
    nlinarith
  · simp only [hs, if_false]
    have := mul_nonneg h1 (mul_nonneg ha (sq_nonneg (s - s')))
    nlinarith

theorem score_mix (x y v : Vec K) (t : ℝ) :
    score (t • x + (1 - t) • y) v = t * score x v + (1 - t) * score y v := by
  unfold score
  rw [Finset.mul_sum, Finset.mul_sum, ← Finset.sum_add_distrib]
  refine Finset.sum_congr rfl (fun k _ => ?_)
  simp only [Pi.add_apply, Pi.smul_apply, smul_eq_mul]
  ring

theorem normSq_mix (x y : Vec K) (t : ℝ) :
    normSq (t • x + (1 - t) • y) =
      t * normSq x + (1 - t) * normSq y - t * (1 - t) * normSq (x - y) := by
  unfold normSq
  rw [Finset.mul_sum, Finset.mul_sum, Finset.mul_sum, ← Finset.sum_add_distrib, ← Finset.sum_sub_distrib]
  refine Finset.sum_congr rfl (fun k _ => ?_)
  simp only [Pi.add_apply, Pi.smul_apply, smul_eq_mul, Pi.sub_apply]
  ring

theorem normSq_nonneg (v : Vec K) : 0 ≤ normSq v := Finset.sum_nonneg (fun _ _ => sq_nonneg _)

theorem rowObj_mix {p : Params} {D : Data} (h : Convex p D) (B : Nat → Vec K) (u : Nat) (x y : Vec K)
    (t : ℝ) (ht : 0 ≤ t) (ht1 : t ≤ 1) :
    rowObj p D 0 B u (t • x + (1 - t) • y) ≤ t * rowObj p D 0 B u x + (1 - t) * rowObj p D 0 B u y
      - t * (1 - t) * (userWeight p D u * normSq (x - y)) := by
  unfold rowObj
  simp only [sub_zero]
  rw [normSq_mix]
  have : ∑ i ∈ Finset.range D.I, pairTerm p D u i (score (t • x + (1 - t) • y) (B i)) ≤
      t * ∑ i ∈ Finset.range D.I, pairTerm p D u i (score x (B i)) +
        (1 - t) * ∑ i ∈ Finset.range D.I, pairTerm p D u i (score y (B i)) := by
    rw [Finset.mul_sum, Finset.mul_sum, ← Finset.sum_add_distrib]
    refine Finset.sum_le_sum (fun i _ => ?_)
    rw [score_mix]
    exact pairTerm_convex h u i _ _ t ht ht1
  linarith

theorem loss_mix {p : Params} {D : Data} (h : Convex p D) (A A' B : Nat → Vec K) (t : ℝ) (ht : 0 ≤ t)
    (ht1 : t ≤ 1) :
    loss p D (fun u => t • A u + (1 - t) • A' u) B ≤ t * loss p D A B + (1 - t) * loss p D A' B
      - t * (1 - t) * (1 / 2 * ∑ u ∈ Finset.range D.U, userWeight p D u * normSq (A u - A' u)) := by
  simp only [loss_eq_priorLoss, priorLoss_eq]
  have : ∑ u ∈ Finset.range D.U, rowObj p D 0 B u (t • A u + (1 - t) • A' u) ≤
      t * ∑ u ∈ Finset.range D.U, rowObj p D 0 B u (A u) +
        (1 - t) * ∑ u ∈ Finset.range D.U, rowObj p D 0 B u (A' u) -
        t * (1 - t) * ∑ u ∈ Finset.range D.U, userWeight p D u * normSq (A u - A' u) := by
    rw [Finset.mul_sum, Finset.mul_sum, Finset.mul_sum, ← Finset.sum_add_distrib,
      ← Finset.sum_sub_distrib]
    exact Finset.sum_le_sum (fun u _ => rowObj_mix h B u _ _ t ht ht1)
  linarith

/-- moving to the best user embeddings gains at least half the weighted squared distance -/
theorem gain_users {p : Params} {D : Data} (h : Convex p D) (A A' B : Nat → Vec K)
    (hb : ∀ A'', loss p D A' B ≤ loss p D A'' B) :
    1 / 2 * ∑ u ∈ Finset.range D.U, userWeight p D u * normSq (A u - A' u) ≤
      loss p D A B - loss p D A' B := by
  set Q := 1 / 2 * ∑ u ∈ Finset.range D.U, userWeight p D u * normSq (A u - A' u) with hQ
  set d := loss p D A B - loss p D A' B with hd
  have hd0 : 0 ≤ d := sub_nonneg.mpr (hb A)
  by_contra hlt
  push Not at hlt
  have hQ0 : 0 < Q := lt_of_le_of_lt hd0 hlt
  have ht0 : 0 < (Q - d) / (2 * Q) := div_pos (by linarith) (by linarith)
  have ht1 : (Q - d) / (2 * Q) ≤ 1 := by rw [div_le_one (by linarith)]; linarith
  have h1 := (hb _).trans (loss_mix h A A' B ((Q - d) / (2 * Q)) ht0.le ht1)
  rw [← hQ] at h1
  set t := (Q - d) / (2 * Q) with htd
  have h2 : t * ((1 - t) * Q) ≤ t * d := by rw [hd]; linarith
  have h3 := le_of_mul_le_mul_left h2 ht0
  have h4 : t * Q = (Q - d) / 2 := by rw [htd]; field_simp
  linarith

theorem loss_swap (p : Params) (D : Data) (A B : Nat → Vec K) : loss p D.swap B A = loss p D A B := by
  rw [loss_eq_priorLoss, loss_eq_priorLoss, priorLoss_swap]

theorem Convex.swap {p : Params} {D : Data} (h : Convex p D) : Convex p D.swap :=
  ⟨fun u i hs => h.value i u hs, h.alpha0, h.iw, h.uw⟩

theorem gain_items {p : Params} {D : Data} (h : Convex p D) (A B B' : Nat → Vec K)
    (hb : ∀ B'', loss p D A B' ≤ loss p D A B'') :
    1 / 2 * ∑ i ∈ Finset.range D.I, itemWeight p D i * normSq (B i - B' i) ≤
      loss p D A B - loss p D A B' := by
  have := gain_users h.swap B B' A (fun B'' => by rw [loss_swap, loss_swap]; exact hb B'')
  rw [loss_swap, loss_swap] at this
  exact this

theorem dataTerm_nonneg {p : Params} {D : Data} (h : Convex p D) (A B : Nat → Vec K) :
    0 ≤ dataTerm p D A B := by
  classical
  have ha := h.alpha0
  unfold dataTerm
  split
  · unfold originalTerm
    refine Finset.sum_nonneg (fun u _ => Finset.sum_nonneg (fun i _ => mul_nonneg ?_ (sq_nonneg _)))
    split
    · next hs => exact add_nonneg ha (h.value u i hs)
    · exact ha
  · unfold ialsppTerm
    refine add_nonneg (Finset.sum_nonneg (fun u _ => Finset.sum_nonneg (fun i hi =>
      mul_nonneg (h.value u i (Finset.mem_filter.mp hi).2) (sq_nonneg _))))
      (mul_nonneg ha (Finset.sum_nonneg (fun u _ => Finset.sum_nonneg (fun i _ => sq_nonneg _))))

theorem loss_users {p : Params} {D : Data} (h : Convex p D) (A B : Nat → Vec K) (u : Nat) (hu : u < D.U) :
    1 / 2 * (userWeight p D u * normSq (A u)) ≤ loss p D A B := by
  unfold loss
  have h1 := dataTerm_nonneg h A B
  have h2 : 0 ≤ ∑ i ∈ Finset.range D.I, itemWeight p D i * normSq (B i) :=
    Finset.sum_nonneg (fun i _ => mul_nonneg (h.iw i) (normSq_nonneg _))
  have h3 := Finset.single_le_sum (f := fun u => userWeight p D u * normSq (A u))
    (fun u _ => mul_nonneg (h.uw u) (normSq_nonneg _)) (Finset.mem_range.mpr hu)
  linarith

theorem loss_items {p : Params} {D : Data} (h : Convex p D) (A B : Nat → Vec K) (i : Nat) (hi : i < D.I) :
    1 / 2 * (itemWeight p D i * normSq (B i)) ≤ loss p D A B := by
  have := loss_users h.swap B A i hi
  rw [loss_swap] at this
  exact this

theorem featureLoss_nonneg {p : Params} {D : Data} (h : Convex p D) (lu li : ℝ) (nU nI : Nat)
    (FU FI : Nat → Nat → ℝ) (WU WI A B : Nat → Vec K) (hu : nU ≠ 0 → 0 < lu) (hi : nI ≠ 0 → 0 < li) :
    0 ≤ featureLoss p D lu li nU FU WU nI FI WI A B := by
  unfold featureLoss priorLoss
  have h1 := dataTerm_nonneg h A B
  have h2 : 0 ≤ ∑ i ∈ Finset.range D.I, itemWeight p D i * normSq (B i - predicted nI FI WI i) :=
    Finset.sum_nonneg (fun i _ => mul_nonneg (h.iw i) (normSq_nonneg _))
  have h3 : 0 ≤ ∑ i ∈ Finset.range D.U, userWeight p D i * normSq (A i - predicted nU FU WU i) :=
    Finset.sum_nonneg (fun i _ => mul_nonneg (h.uw i) (normSq_nonneg _))
  have key : ∀ (n : Nat) (l : ℝ) (W : Nat → Vec K), (n ≠ 0 → 0 < l) → 0 ≤ l * weightNormSq n W := by
    intro n l W hl
    by_cases hn : n = 0
    · subst hn; simp [weightNormSq]
    · exact mul_nonneg (hl hn).le (Finset.sum_nonneg (fun _ _ => normSq_nonneg _))
  have h4 := key nU lu WU hu
  have h5 := key nI li WI hi
  linarith

theorem loss_tendsto (p : Params) (D : Data) {A B : Nat → Nat → Vec K} {A' B' : Nat → Vec K}
    (hA : ∀ u < D.U, ∀ k, Tendsto (fun n => A n u k) atTop (𝓝 (A' u k)))
    (hB : ∀ i < D.I, ∀ k, Tendsto (fun n => B n i k) atTop (𝓝 (B' i k))) :
    Tendsto (fun n => loss p D (A n) (B n)) atTop (𝓝 (loss p D A' B')) := by
  have hsq : ∀ (V : Nat → Vec K) (v : Vec K), (∀ k, Tendsto (fun n => V n k) atTop (𝓝 (v k))) →
      Tendsto (fun n => normSq (V n)) atTop (𝓝 (normSq v)) := by
    intro V v h
    exact tendsto_finsetSum _ (fun k _ => (h k).pow 2)
  have hpair : ∀ u i, Continuous (pairTerm p D u i) := by
    intro u i
    unfold pairTerm
    by_cases hs : D.S u i
    · simp only [hs, if_true]; fun_prop
    · simp only [hs, if_false]; fun_prop
  unfold loss
  simp only [dataTerm_eq]
  refine Tendsto.add (Tendsto.const_mul _ ?_) (Tendsto.const_mul _ (Tendsto.add ?_ ?_))
  · refine tendsto_finsetSum _ (fun u hu => tendsto_finsetSum _ (fun i hi => ?_))
    refine ((hpair u i).tendsto _).comp ?_
    exact tendsto_finsetSum _ (fun k _ => (hA u (Finset.mem_range.mp hu) k).mul
      (hB i (Finset.mem_range.mp hi) k))
  · exact tendsto_finsetSum _ (fun u hu => (hsq _ _ (hA u (Finset.mem_range.mp hu))).const_mul _)
  · exact tendsto_finsetSum _ (fun u hu => (hsq _ _ (hB u (Finset.mem_range.mp hu))).const_mul _)

theorem convex_of_valid {cfg : Config} {X : CSR ℝ} (hv : Valid cfg X) :
    Convex (paramsOf cfg) (Data.ofCSR X) where
  value := by
    intro u i hs
    show 0 ≤ SpVec.get (X.row u) i
    have := nonNeg_row hv.nonneg u
    generalize X.row u = row at this
    induction row with
    | nil => exact le_rfl
    | cons e row ih =>
      rw [get_cons_real]
      refine add_nonneg ?_ (ih (fun e' he' => this e' (List.mem_cons_of_mem _ he')))
      split
      · exact this e List.mem_cons_self
      · exact le_rfl
  alpha0 := hv.alpha0
  uw := fun u => by rw [weight_ofCSR cfg X hv.proper]; exact computeReg_nonneg cfg hv.reg hv.alpha0 _ _
  iw := fun i => by rw [itemWeight_ofCSR cfg X hv.proper]; exact computeReg_nonneg cfg hv.reg hv.alpha0 _ _

/-- an epoch with the Cholesky solver: first the best users for the old items, then the best items -/
theorem epoch_cholesky {ω : Oracle T} (hω : ω.Complete) {cfg : Config} {X : CSR ℝ} (hv : Valid cfg X)
    {sc : SolverConfig} (hs : sc.solverType = .cholesky) {tr tr' : Trainer K} (hr : tr.Reached cfg X)
    (hf : tr.featureAware = false) (h : tr.step ω sc = .ok tr') :
    tr'.featureAware = false ∧
    (∀ A, loss (paramsOf cfg) (Data.ofCSR X) tr'.user.row tr.item.row ≤
      loss (paramsOf cfg) (Data.ofCSR X) A tr.item.row) ∧
    ∀ B, loss (paramsOf cfg) (Data.ofCSR X) tr'.user.row tr'.item.row ≤
      loss (paramsOf cfg) (Data.ofCSR X) tr'.user.row B := by
  obtain ⟨hg, hc, hx⟩ := reached_good hv hr
  unfold Trainer.step at h
  rw [if_neg (by simp [hf])] at h
  obtain ⟨tr₁, h1, h⟩ := bind_ok h
  obtain ⟨tr₂, h2, h⟩ := bind_ok h
  cases h
  have hU := fun A => C42_cholesky_users_optimal (hω.at 0) cfg X hv sc hs tr tr₁ hr hf h1 A
  obtain ⟨hT, user, s1, rfl⟩ := stepUser_plain (hω.at 0) sc tr tr₁ hf h1
  have hg1 := (stepUser_good (hω.at 0) tr _ hg h1 (hx ▸ hv.proper) (hx ▸ hv.nonneg) (hc ▸ hv.reg)
    (hc ▸ hv.alpha0)).1
  obtain ⟨-, item, s2, rfl⟩ := stepItem_plain (hω.at 1) sc { tr with user := user } tr₂ hf h2
  refine ⟨hf, fun A => (hU A).2.1, fun B => ?_⟩
  simp only at s2 ⊢
  rw [hc, hg.Xt, hx] at s2
  unfold solverStep at s2
  rw [hs] at s2
  obtain ⟨hn, hrow⟩ := stepCholesky_row ((hω.at 1).at 1) hT _ _ _ s2
  have hun : user.n = X.nrows := by rw [← hx]; exact hg1.un
  have := loss_lt_of_rows cfg (transpose X) (Sim.transpose_proper X hv.proper) user B item.row
    (by rw [hun]; rfl) (by
    intro r hr'
    by_cases he : item.row r = B r
    · exact Or.inl he
    · right
      have hm := choleskyRow_min hv.alpha0 hv.reg (nonNeg_row (transpose_nonNeg hv.nonneg) r) _
        (hrow r (by rw [hg.vn, hx]; rw [Sim.transpose_nrows] at hr'; exact hr'))
      exact rowQ_strict r hm.1 0 _ (by rw [smul_zero]; exact hm.2) _ (fun e => he e.symm))
  rw [ofCSR_transpose X hv.proper, loss_swap, loss_swap] at this
  exact this.1

end Irspack.Ials
