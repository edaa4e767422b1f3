import Verif.Proofs.IalsFeatureGain

/-! # Conjugate gradients in feature-aware training come to rest -/

namespace Irspack.Ials

open Spec.Ials Matrix

variable {K T : Nat}

/-- a row is left alone, or its update gains something -/
theorem cgRow_stop_prior {cfg : Config} (ha : 0 ≤ cfg.alpha0) (hr : 0 ≤ cfg.reg) {X : CSR ℝ} {V : Factor K}
    (sc : SolverConfig) {r : Nat} (q x y : Vec K) (L : ℝ)
    (hL : ∀ z : Vec K, z ⬝ᵥ (rowMat cfg (gramP cfg V) X V r).mulVec z ≤ L * (z ⬝ᵥ z))
    (h : cgRow cfg sc (gramP cfg V) V (some q) (X.row r) x = .ok y)
    (hgain : (rowQ cfg X V q r x - rowQ cfg X V q r y) * L < cgEps) :
    y = x ∧ (sysRhs cfg V (X.row r) (computeReg cfg (X.row r).length V.n • q) -
        (rowMat cfg (gramP cfg V) X V r).mulVec x) ⬝ᵥ
      (sysRhs cfg V (X.row r) (computeReg cfg (X.row r).length V.n • q) -
        (rowMat cfg (gramP cfg V) X V r).mulVec x) ≤ cgEps := by
  have heps : (0 : ℝ) ≤ cgEps := by unfold cgEps; positivity
  rw [cgRow_eq cfg sc _ V (some q) _ x (by simp)] at h
  simp only [priorRhs] at h
  unfold rowQ at hgain
  change cgLoop (rowMat cfg (gramP cfg V) X V r).mulVec cgEps (cgMaxIter K sc) x _ _ = .ok y at h
  change cgLoop (rowMat cfg (gramP cfg V) X V r).mulVec cgEps (cgMaxIter K sc) x
    (sysRhs cfg V (X.row r) (computeReg cfg (X.row r).length V.n • q) -
      (rowMat cfg (gramP cfg V) X V r).mulVec x)
    (sysRhs cfg V (X.row r) (computeReg cfg (X.row r).length V.n • q) -
      (rowMat cfg (gramP cfg V) X V r).mulVec x) = .ok y at h
  set A := rowMat cfg (gramP cfg V) X V r with hAdef
  set b := sysRhs cfg V (X.row r) (computeReg cfg (X.row r).length V.n • q) with hbdef
  obtain ⟨j, hj0, hj, rfl, hruns, hend⟩ := cgLoop_ok A b x cgEps heps _ 0 y h
  have hA : ∀ i j, A i j = A j i := rowMat_symm ha hr r
  rcases Nat.eq_zero_or_pos j with rfl | hj1
  · refine ⟨rfl, ?_⟩
    rcases hend with h1 | h1
    · exact h1
    · rcases Nat.eq_zero_or_pos K with rfl | hK
      · have : ∀ z : Vec 0, z ⬝ᵥ z = 0 := fun z => by simp [dotProduct]
        rw [this]
        exact heps
      · exfalso
        have : 0 < cgMaxIter K sc := by unfold cgMaxIter; split <;> omega
        omega
  · exfalso
    have h0 := hruns 0 le_rfl hj1
    have h1 := cgSeq_quad_le A b x hA 1 j hj1 (fun i hi => (hruns i (Nat.zero_le i) hi).1)
    have h2 := cgSeq_quad A b x hA 0 (fun i hi => by rw [Nat.le_zero.mp hi]; exact h0.1)
    have hL0 := hL (cgSeq A b x 0).p
    have hx0 : (cgSeq A b x 0).x = x := rfl
    have hp0 : (cgSeq A b x 0).p = (cgSeq A b x 0).r := rfl
    rw [hx0] at h2
    have hpos := h0.1.2
    have hgt := h0.2
    rw [hp0] at hL0 hpos h2
    set rr := (cgSeq A b x 0).r ⬝ᵥ (cgSeq A b x 0).r
    set q' := (cgSeq A b x 0).r ⬝ᵥ A.mulVec (cgSeq A b x 0).r
    have hrr : 0 < rr := lt_of_le_of_lt heps hgt
    have hLpos : 0 < L := by
      by_contra hneg
      have : L * rr ≤ 0 := mul_nonpos_of_nonpos_of_nonneg (not_lt.mp hneg) hrr.le
      linarith
    have h3 : rr ^ 2 / q' ≤ quad A b x - quad A b (cgSeq A b x j).x := by linarith
    have h4 : rr ≤ rr ^ 2 / q' * L := by
      rw [div_mul_eq_mul_div, le_div_iff₀ hpos]
      nlinarith
    have h5 := mul_le_mul_of_nonneg_right h3 hLpos.le
    linarith

theorem sysRhs_shift (cfg : Config) (V : Factor K) (row : SpVec ℝ) (b : Vec K) :
    sysRhs cfg V row b = sysRhs cfg V row 0 + b := by
  unfold sysRhs
  rw [zero_add, add_comm]

/-- the residual of the system of a row with a prior -/
theorem system_residual_prior (cfg : Config) (X : CSR ℝ) (hX : Spec.Sim.Proper X) (V : Factor K)
    (hV : V.n = X.cols) (u : Nat) (q x : Vec K) :
    normSq (systemRhs (paramsOf cfg) (Data.ofCSR X) V.row u + userWeight (paramsOf cfg) (Data.ofCSR X) u • q -
      systemAt (paramsOf cfg) (Data.ofCSR X) V.row u x) =
    (sysRhs cfg V (X.row u) (computeReg cfg (X.row u).length V.n • q) -
        (rowMat cfg (gramP cfg V) X V u).mulVec x) ⬝ᵥ
      (sysRhs cfg V (X.row u) (computeReg cfg (X.row u).length V.n • q) -
        (rowMat cfg (gramP cfg V) X V u).mulVec x) := by
  rw [systemRhs_eq cfg X hX, systemAt_eq cfg X hX V hV, normSq_eq, sysRhs_shift cfg V _ (_ • q),
    weight_ofCSR cfg X hX, hV]

/-- the new weights are the best for the new embeddings, by a margin -/
theorem Half.weights {cfg : Config} {sc : SolverConfig} {X : CSR ℝ} (hv : Valid cfg X)
    {V : Factor K} (hV : V.n = X.cols) {feat : Features} {lam : ℝ}
    {warm : Prop} (hw : ¬ warm) {F F' : Factor K} {W W' : Weight K}
    (h : Half cfg sc X V feat lam warm F F' W W') (W'' : Nat → Vec K) :
    lam * weightNormSq feat.cols (fun f => W'' f - W'.val f) ≤
      sideLoss X.nrows feat.cols (userWeight (paramsOf cfg) (Data.ofCSR X)) feat.val lam F'.row W'' -
      sideLoss X.nrows feat.cols (userWeight (paramsOf cfg) (Data.ofCSR X)) feat.val lam F'.row W'.val := by
  obtain ⟨T, ω, hω, hT, h⟩ := h
  rcases h with ⟨hne, hrows, h1, ω', c, c', hω', hco, h2⟩ | ⟨hz, h1, rfl⟩
  · have g2 := updateFeatureWeight_gain hω' cfg hv.reg hv.alpha0 feat hne F' W W' lam X V.n c c' hco h2 W''
    have hwt : userWeight (paramsOf cfg) (Data.ofCSR X) =
        fun r => computeReg cfg (X.row r).length V.n := by
      funext u; rw [weight_ofCSR cfg X hv.proper, hV]
    rw [hrows, ← hwt] at g2
    exact g2
  · have h0 : feat.cols = 0 := hz.resolve_right (fun h => hw h.1)
    have hp : ∀ W r, predicted (K := K) feat.cols feat.val W r = 0 := fun W => predicted_zero _ _ _ (Or.inl h0)
    unfold sideLoss
    simp only [hp]
    rw [h0]
    simp [weightNormSq]

/-- conjugate gradients set the embedding of an empty row to zero where there are no features -/
theorem Half.empty {cfg : Config} {sc : SolverConfig} {X : CSR ℝ} 
    (hs : sc.solverType = .cg) {V : Factor K} {feat : Features} {lam : ℝ} {warm : Prop}
    {F F' : Factor K} (hF : F.n = X.nrows) {W W' : Weight K}
    (h : Half cfg sc X V feat lam warm F F' W W') (h0 : feat.cols = 0)
    (r : Nat) (hr : r < X.nrows) (hne : X.row r = []) : F'.row r = 0 := by
  obtain ⟨T, ω, hω, hT, h⟩ := h
  rcases h with ⟨hn, -⟩ | ⟨-, h1, -⟩
  · exact absurd h0 hn
  · exact side_empty hω hT hs hF h1 r hr hne

/-- a half-epoch with conjugate gradients that gains almost nothing changes no embedding -/
theorem Half.stop {cfg : Config} {sc : SolverConfig} {X : CSR ℝ} (hv : Valid cfg X)
    (hs : sc.solverType = .cg) {V : Factor K} (hV : V.n = X.cols) {feat : Features} {lam : ℝ}
    (hlam : feat.cols ≠ 0 → 0 < lam) {warm : Prop} (hw : ¬ warm) {F F' : Factor K}
    (hF : F.n = X.nrows) {W W' : Weight K} (h : Half cfg sc X V feat lam warm F F' W W')
    (L : ℝ) (hL0 : 0 < L)
    (hL : ∀ r < X.nrows, ∀ z : Vec K, z ⬝ᵥ (rowMat cfg (gramP cfg V) X V r).mulVec z ≤ L * (z ⬝ᵥ z))
    (he : feat.cols = 0 → ∀ r < X.nrows, X.row r = [] → F.row r = 0)
    (li : ℝ) (nI : Nat) (FI : Nat → Nat → ℝ) (WI : Nat → Vec K)
    (hd : 2 * (featureLoss (paramsOf cfg) (Data.ofCSR X) lam li feat.cols feat.val W.val nI FI WI F.row V.row -
      featureLoss (paramsOf cfg) (Data.ofCSR X) lam li feat.cols feat.val W'.val nI FI WI F'.row V.row) * L
        < cgEps) (r : Nat) (hr : r < X.nrows) :
    F'.row r = F.row r ∧
    normSq (systemRhs (paramsOf cfg) (Data.ofCSR X) V.row r +
      userWeight (paramsOf cfg) (Data.ofCSR X) r • predicted feat.cols feat.val W.val r -
      systemAt (paramsOf cfg) (Data.ofCSR X) V.row r (F.row r)) ≤ cgEps := by
  have hW := h.weights hv hV hw W.val
  have hWn : 0 ≤ lam * weightNormSq feat.cols (fun f => W.val f - W'.val f) := by
    by_cases h0 : feat.cols = 0
    · rw [h0]; simp [weightNormSq]
    · exact mul_nonneg (hlam h0).le (Finset.sum_nonneg (fun _ _ => normSq_nonneg _))
  have key : (∀ r' < X.nrows, 0 ≤ rowQ cfg X V (predicted feat.cols feat.val W.val r') r' (F.row r') -
        rowQ cfg X V (predicted feat.cols feat.val W.val r') r' (F'.row r')) →
      (rowQ cfg X V (predicted feat.cols feat.val W.val r) r (F.row r) -
        rowQ cfg X V (predicted feat.cols feat.val W.val r) r (F'.row r)) * L < cgEps := by
    intro hpos
    have l1 := priorLoss_gain hv V hV (predicted feat.cols feat.val W.val) (predicted nI FI WI) F.row F'.row
      (fun r' => if r' = r then rowQ cfg X V (predicted feat.cols feat.val W.val r') r' (F.row r') -
        rowQ cfg X V (predicted feat.cols feat.val W.val r') r' (F'.row r') else 0) (by
        intro r' hr'
        by_cases hrr : r' = r
        · simp [hrr]
        · simp only [if_neg hrr]; exact hpos r' hr')
    rw [Finset.sum_ite_eq', if_pos (Finset.mem_range.mpr hr)] at l1
    have e1 := featureLoss_user (paramsOf cfg) (Data.ofCSR X) lam li feat.cols feat.val W.val nI FI WI
      F'.row V.row
    have e2 := featureLoss_user (paramsOf cfg) (Data.ofCSR X) lam li feat.cols feat.val W'.val nI FI WI
      F'.row V.row
    have e3 : featureLoss (paramsOf cfg) (Data.ofCSR X) lam li feat.cols feat.val W.val nI FI WI F.row V.row -
        featureLoss (paramsOf cfg) (Data.ofCSR X) lam li feat.cols feat.val W.val nI FI WI F'.row V.row =
        priorLoss (paramsOf cfg) (Data.ofCSR X) (predicted feat.cols feat.val W.val) (predicted nI FI WI)
          F.row V.row -
        priorLoss (paramsOf cfg) (Data.ofCSR X) (predicted feat.cols feat.val W.val) (predicted nI FI WI)
          F'.row V.row := by
      unfold featureLoss
      ring
    have hU : (Data.ofCSR X).U = X.nrows := rfl
    rw [hU] at e1 e2
    have h3 : rowQ cfg X V (predicted feat.cols feat.val W.val r) r (F.row r) -
        rowQ cfg X V (predicted feat.cols feat.val W.val r) r (F'.row r) ≤
        2 * (featureLoss (paramsOf cfg) (Data.ofCSR X) lam li feat.cols feat.val W.val nI FI WI F.row V.row -
      featureLoss (paramsOf cfg) (Data.ofCSR X) lam li feat.cols feat.val W'.val nI FI WI F'.row V.row) := by
      linarith
    exact lt_of_le_of_lt (mul_le_mul_of_nonneg_right h3 hL0.le) hd
  obtain ⟨T, ω, hω, hT, h⟩ := h
  rw [system_residual_prior cfg X hv.proper V hV]
  have hreg : ∀ r', 0 ≤ computeReg cfg (X.row r').length V.n * normSq (F.row r' - F'.row r') := fun r' =>
    mul_nonneg (computeReg_nonneg cfg hv.reg hv.alpha0 _ _) (normSq_nonneg _)
  rcases h with ⟨hne, hrows, h1, -⟩ | ⟨hz, h1, rfl⟩
  · have hrow := (solverStepPrior_cg hω hT hs h1).2.2 r (by rw [hF]; exact hr)
    exact cgRow_stop_prior hv.alpha0 hv.reg sc _ _ _ L (hL r hr) hrow (key (fun r' hr' =>
      (hreg r').trans (solverStepPrior_gain hω hT hv.alpha0 hv.reg sc _ _ _
        (fun r _ => nonNeg_row hv.nonneg r) h1 r' (by rw [hF]; exact hr'))))
  · have h0 : feat.cols = 0 := hz.resolve_right (fun h => hw h.1)
    have hp : ∀ r, predicted (K := K) feat.cols feat.val W'.val r = 0 := predicted_zero _ _ _ (Or.inl h0)
    simp only [hp] at key ⊢
    rw [smul_zero]
    unfold solverStep at h1
    rw [hs] at h1
    have hrow := (stepCg_row hω hT h1).2 r (by rw [hF]; exact hr)
    by_cases hne : X.row r = []
    · have h0 := he h0 r hr hne
      have hb : sysRhs cfg V (X.row r) 0 = 0 := by rw [hne]; simp [sysRhs]
      rw [hb, h0, Matrix.mulVec_zero, sub_zero, zero_dotProduct]
      refine ⟨?_, by unfold cgEps; positivity⟩
      unfold cgRow at hrow
      simp only at hrow
      rw [if_pos (by simp [hne])] at hrow
      exact (Except.ok.inj hrow).symm
    · exact cgRow_stop hv.alpha0 hv.reg sc hne _ _ L (hL r hr) hrow (key (fun r' hr' =>
        (hreg r').trans (cgRow_gain hv.alpha0 hv.reg sc (nonNeg_row hv.nonneg r') _ _
          ((stepCg_row hω hT h1).2 r' (by rw [hF]; exact hr')))))

/-- bounded embeddings bound the matrices of the rows -/
theorem upper_of_bound {cfg : Config} {X : CSR ℝ} (hv : Valid cfg X) (V : Nat → Factor K)
    (hVn : ∀ n, (V n).n = X.cols) (C : ℝ) (hC0 : 0 ≤ C) (hC : ∀ n, ∀ i < X.cols, normSq ((V n).row i) ≤ C) :
    ∃ L : ℝ, 0 < L ∧ ∀ n, ∀ u < X.nrows, ∀ z : Vec K,
      z ⬝ᵥ (rowMat cfg (gramP cfg (V n)) X (V n) u).mulVec z ≤ L * (z ⬝ᵥ z) := by
  let g : Nat → ℝ := fun u => cfg.alpha0 * (X.cols * C) + ((X.row u).map (fun e => e.2 * C)).sum
        + computeReg cfg (X.row u).length X.cols
  have hg : ∀ u, 0 ≤ g u := by
    intro u
    refine add_nonneg (add_nonneg (mul_nonneg hv.alpha0 (by positivity)) (List.sum_nonneg ?_))
      (computeReg_nonneg cfg hv.reg hv.alpha0 _ _)
    intro x hx
    obtain ⟨e, he, rfl⟩ := List.mem_map.mp hx
    exact mul_nonneg (nonNeg_row hv.nonneg u e he) hC0
  refine ⟨∑ u ∈ Finset.range X.nrows, g u + 1, add_pos_of_nonneg_of_pos
    (Finset.sum_nonneg (fun u _ => hg u)) one_pos, fun n u hu z => ?_⟩
  have h1 := rowMat_upper (V := V n) hv.alpha0 (nonNeg_row hv.nonneg u)
    (fun e he => by rw [hVn]; exact Sim.row_bound hv.proper u e he) C
    (fun i hi => hC n i (by rw [← hVn n]; exact hi)) z
  rw [hVn] at h1
  refine h1.trans (mul_le_mul_of_nonneg_right ?_ (dot_self_nonneg z))
  have h2 := Finset.single_le_sum (f := g) (fun j _ => hg j) (Finset.mem_range.mpr hu)
  have h3 : g u = cfg.alpha0 * (X.cols * C) + ((X.row u).map (fun e => e.2 * C)).sum
        + computeReg cfg (X.row u).length X.cols := rfl
  linarith

theorem sideLoss_congr {n nF : Nat} {w : Nat → ℝ} {F : Nat → Nat → ℝ} {lam : ℝ} {A A' : Nat → Vec K}
    (h : ∀ r < n, A r = A' r) (W : Nat → Vec K) : sideLoss n nF w F lam A W = sideLoss n nF w F lam A' W := by
  unfold sideLoss
  congr 1
  exact Finset.sum_congr rfl (fun r hr => by rw [h r (Finset.mem_range.mp hr)])

theorem predicted_congr {nF : Nat} {F : Nat → Nat → ℝ} {W W' : Nat → Vec K} (h : ∀ f < nF, W f = W' f) (r : Nat) :
    predicted nF F W r = predicted nF F W' r := by
  funext k
  unfold predicted
  exact Finset.sum_congr rfl (fun f hf => by rw [h f (Finset.mem_range.mp hf)])

theorem eq_of_weightNormSq {nF : Nat} {lam : ℝ} (hl : nF ≠ 0 → 0 < lam) {W W' : Nat → Vec K}
    (h : lam * weightNormSq nF (fun f => W f - W' f) ≤ 0) (f : Nat) (hf : f < nF) : W f = W' f := by
  have hlam := hl (by omega)
  have h1 : normSq (W f - W' f) ≤ weightNormSq nF (fun f => W f - W' f) :=
    Finset.single_le_sum (f := fun f => normSq (W f - W' f)) (fun f _ => normSq_nonneg _) (Finset.mem_range.mpr hf)
  have h2 : weightNormSq nF (fun f => W f - W' f) ≤ 0 := by
    by_contra hc
    push Not at hc
    have := mul_pos hlam hc
    linarith
  have h3 : normSq (W f - W' f) = 0 := le_antisymm (h1.trans h2) (normSq_nonneg _)
  funext k
  have h4 := Finset.sum_eq_zero_iff_of_nonneg (fun k _ => sq_nonneg _) |>.mp h3 k (Finset.mem_univ k)
  have := pow_eq_zero_iff (n := 2) (by norm_num) |>.mp h4
  rw [Pi.sub_apply] at this
  linarith

end Irspack.Ials
