import Verif.Proofs.IalsConverge

/-! # What a half-epoch by Cholesky or conjugate gradient gains -/

namespace Irspack.Ials

open Spec.Ials Matrix

variable {K T : Nat}

theorem cgSeq_moved (A : Matrix (Fin K) (Fin K) ℝ) (hA : ∀ i j, A i j = A j i) (b x₀ : Vec K) (n : Nat)
    (h : ∀ i, i < n → CgRuns A b x₀ i) (m : Nat) (hm : m ≤ n) :
    (cgSeq A b x₀ n).r ⬝ᵥ ((cgSeq A b x₀ m).x - x₀) = 0 := by
  induction m with
  | zero => show _ ⬝ᵥ (x₀ - x₀) = 0; rw [sub_self, dotProduct_zero]
  | succ m ih =>
    have h1 := (cgSeq_orthogonal A b x₀ hA n h m (by omega)).1
    rw [cgSeq_x_succ, add_sub_right_comm, dotProduct_add, ih (by omega), dotProduct_smul, h1, smul_zero,
      add_zero]

/-- conjugate gradients gain exactly the energy of the move -/
theorem cgSeq_gain (A : Matrix (Fin K) (Fin K) ℝ) (hA : ∀ i j, A i j = A j i) (b x₀ : Vec K) (n : Nat)
    (h : ∀ i, i < n → CgRuns A b x₀ i) :
    quad A b x₀ - quad A b (cgSeq A b x₀ n).x =
      (x₀ - (cgSeq A b x₀ n).x) ⬝ᵥ A.mulVec (x₀ - (cgSeq A b x₀ n).x) := by
  have h1 := quad_add hA b (cgSeq A b x₀ n).x (x₀ - (cgSeq A b x₀ n).x)
  have h2 := cgSeq_moved A hA b x₀ n h n le_rfl
  rw [← cgSeq_residual, dotProduct_comm _ (cgSeq A b x₀ n).r, ← neg_sub, dotProduct_neg, h2,
    neg_sub, add_sub_cancel] at h1
  linarith

theorem cgRow_gain {cfg : Config} (ha : 0 ≤ cfg.alpha0) (hr : 0 ≤ cfg.reg) {X : CSR ℝ} {V : Factor K}
    (sc : SolverConfig) {r : Nat} (hX : NonNegRow (X.row r)) (x y : Vec K)
    (h : cgRow cfg sc (gramP cfg V) V none (X.row r) x = .ok y) :
    computeReg cfg (X.row r).length V.n * normSq (x - y) ≤ rowQ cfg X V 0 r x - rowQ cfg X V 0 r y := by
  rw [normSq_eq]
  refine (rowMat_lower ha hX (x - y)).trans ?_
  by_cases he : (none : Option (Vec K)).isNone = true ∧ (X.row r).length = 0
  · unfold cgRow at h
    simp only at h
    rw [if_pos he] at h
    cases h
    have h2 : X.row r = [] := List.length_eq_zero_iff.mp he.2
    have hb : sysRhs cfg V (X.row r) (computeReg cfg (X.row r).length V.n • (0 : Vec K)) = 0 := by
      rw [h2]; simp [sysRhs]
    unfold rowQ quad
    rw [hb]
    simp
  · rw [cgRow_eq cfg sc _ V none _ x he] at h
    simp only [priorRhs] at h
    obtain ⟨j, hj0, hj, rfl, hruns, hend⟩ := cgLoop_ok _ _ x cgEps (by unfold cgEps; positivity) _ 0 y h
    have := cgSeq_gain _ (rowMat_symm ha hr r) _ x j (fun i hi => (hruns i (Nat.zero_le i) hi).1)
    unfold rowQ
    rw [smul_zero]
    exact this.ge

/-- a row is left alone, or its update gains something -/
theorem cgRow_stop {cfg : Config} (ha : 0 ≤ cfg.alpha0) (hr : 0 ≤ cfg.reg) {X : CSR ℝ} {V : Factor K}
    (sc : SolverConfig) {r : Nat} (hne : X.row r ≠ []) (x y : Vec K) (L : ℝ)
    (hL : ∀ z : Vec K, z ⬝ᵥ (rowMat cfg (gramP cfg V) X V r).mulVec z ≤ L * (z ⬝ᵥ z))
    (h : cgRow cfg sc (gramP cfg V) V none (X.row r) x = .ok y)
    (hgain : (rowQ cfg X V 0 r x - rowQ cfg X V 0 r y) * L < cgEps) :
    y = x ∧ (sysRhs cfg V (X.row r) 0 - (rowMat cfg (gramP cfg V) X V r).mulVec x) ⬝ᵥ
      (sysRhs cfg V (X.row r) 0 - (rowMat cfg (gramP cfg V) X V r).mulVec x) ≤ cgEps := by
  have heps : (0 : ℝ) ≤ cgEps := by unfold cgEps; positivity
  have he : ¬ ((none : Option (Vec K)).isNone = true ∧ (X.row r).length = 0) := by
    simp [List.length_eq_zero_iff, hne]
  rw [cgRow_eq cfg sc _ V none _ x he] at h
  simp only [priorRhs] at h
  obtain ⟨j, hj0, hj, rfl, hruns, hend⟩ := cgLoop_ok _ _ x cgEps heps _ 0 y h
  change ∀ i, 0 ≤ i → i < j → CgRuns (rowMat cfg (gramP cfg V) X V r) (sysRhs cfg V (X.row r) 0) x i ∧
    cgEps < (cgSeq (rowMat cfg (gramP cfg V) X V r) (sysRhs cfg V (X.row r) 0) x i).r ⬝ᵥ
      (cgSeq (rowMat cfg (gramP cfg V) X V r) (sysRhs cfg V (X.row r) 0) x i).r at hruns
  change (cgSeq (rowMat cfg (gramP cfg V) X V r) (sysRhs cfg V (X.row r) 0) x j).x = x ∧ _
  change (rowQ cfg X V 0 r x - rowQ cfg X V 0 r
    (cgSeq (rowMat cfg (gramP cfg V) X V r) (sysRhs cfg V (X.row r) 0) x j).x) * L < cgEps at hgain
  change (cgSeq (rowMat cfg (gramP cfg V) X V r) (sysRhs cfg V (X.row r) 0) x j).r ⬝ᵥ
    (cgSeq (rowMat cfg (gramP cfg V) X V r) (sysRhs cfg V (X.row r) 0) x j).r ≤ cgEps ∨ _ at hend
  unfold rowQ at hgain
  rw [smul_zero] at hgain
  set A := rowMat cfg (gramP cfg V) X V r with hAdef
  set b := sysRhs cfg V (X.row r) 0 with hbdef
  have hA : ∀ i j, A i j = A j i := rowMat_symm ha hr r
  rcases Nat.eq_zero_or_pos j with rfl | hj1
  · refine ⟨rfl, ?_⟩
    rcases hend with h1 | h1
    · exact h1
    · rcases Nat.eq_zero_or_pos K with rfl | hK
      · have : ∀ z : Vec 0, z ⬝ᵥ z = 0 := fun z => by simp [dotProduct]
        rw [this]
        exact heps
      · exfalso
        have : 0 < cgMaxIter K sc := by unfold cgMaxIter; split <;> omega
        omega
  · exfalso
    have h0 := hruns 0 le_rfl hj1
    have h1 := cgSeq_quad_le A b x hA 1 j hj1 (fun i hi => (hruns i (Nat.zero_le i) hi).1)
    have h2 := cgSeq_quad A b x hA 0 (fun i hi => by rw [Nat.le_zero.mp hi]; exact h0.1)
    have hL0 := hL (cgSeq A b x 0).p
    have hx0 : (cgSeq A b x 0).x = x := rfl
    have hp0 : (cgSeq A b x 0).p = (cgSeq A b x 0).r := rfl
    rw [hx0] at h2
    have hpos := h0.1.2
    have hgt := h0.2
    rw [hp0] at hL0 hpos h2
    set rr := (cgSeq A b x 0).r ⬝ᵥ (cgSeq A b x 0).r
    set q := (cgSeq A b x 0).r ⬝ᵥ A.mulVec (cgSeq A b x 0).r
    have hrr : 0 < rr := lt_of_le_of_lt heps hgt
    have hLpos : 0 < L := by
      by_contra hneg
      have : L * rr ≤ 0 := mul_nonpos_of_nonpos_of_nonneg (not_lt.mp hneg) hrr.le
      linarith
    have h3 : rr ^ 2 / q ≤ quad A b x - quad A b (cgSeq A b x j).x := by linarith
    have h4 : rr ≤ rr ^ 2 / q * L := by
      rw [div_mul_eq_mul_div, le_div_iff₀ hpos]
      nlinarith
    have h5 := mul_le_mul_of_nonneg_right h3 hLpos.le
    linarith

theorem dot_sq_le (v x : Vec K) : (v ⬝ᵥ x) ^ 2 ≤ normSq v * (x ⬝ᵥ x) := by
  rw [normSq_eq]
  have := Finset.sum_mul_sq_le_sq_mul_sq Finset.univ v x
  simp only [dotProduct]
  calc (∑ i, v i * x i) ^ 2 ≤ (∑ i, v i ^ 2) * ∑ i, x i ^ 2 := this
    _ = _ := by simp only [sq]

/-- the matrix of a row is bounded if the embeddings of the other side are -/
theorem rowMat_upper {cfg : Config} (ha : 0 ≤ cfg.alpha0) {X : CSR ℝ} {V : Factor K} {r : Nat}
    (hX : NonNegRow (X.row r)) (hb : ∀ e ∈ X.row r, e.1 < V.n) (C : ℝ)
    (hC : ∀ i < V.n, normSq (V.row i) ≤ C) (z : Vec K) :
    z ⬝ᵥ (rowMat cfg (gramP cfg V) X V r).mulVec z ≤
      (cfg.alpha0 * (V.n * C) + ((X.row r).map (fun e => e.2 * C)).sum
        + computeReg cfg (X.row r).length V.n) * (z ⬝ᵥ z) := by
  unfold rowMat
  rw [sysMat_quad, gramP_quad]
  have hz := dot_self_nonneg z
  have h1 : ∀ i < V.n, (V.row i ⬝ᵥ z) ^ 2 ≤ C * (z ⬝ᵥ z) := fun i hi =>
    (dot_sq_le _ _).trans (mul_le_mul_of_nonneg_right (hC i hi) hz)
  have h2 : ∑ i ∈ Finset.range V.n, (V.row i ⬝ᵥ z) ^ 2 ≤ V.n * C * (z ⬝ᵥ z) := by
    refine (Finset.sum_le_sum (fun i hi => h1 i (Finset.mem_range.mp hi))).trans ?_
    rw [Finset.sum_const, Finset.card_range, nsmul_eq_mul, mul_assoc]
  have h3 : ((ents V (X.row r)).map (fun e => e.2 * (e.1 ⬝ᵥ z) ^ 2)).sum ≤
      ((X.row r).map (fun e => e.2 * C)).sum * (z ⬝ᵥ z) := by
    unfold ents
    generalize X.row r = row at hX hb
    induction row with
    | nil => simp
    | cons e row ih =>
      have ih := ih (fun e' he' => hX e' (List.mem_cons_of_mem _ he'))
        (fun e' he' => hb e' (List.mem_cons_of_mem _ he'))
      simp only [List.map_cons, List.sum_cons, add_mul] at ih ⊢
      have := mul_le_mul_of_nonneg_left (h1 e.1 (hb e List.mem_cons_self)) (hX e List.mem_cons_self)
      linarith
  have h4 := mul_le_mul_of_nonneg_left h2 ha
  nlinarith

/-- Cholesky and conjugate gradient gain at least the weighted squared distance of the move. -/
theorem solverStep_gain {ω : Oracle T} (hω : ω.Complete) (hT : 0 < T) {cfg : Config} (ha : 0 ≤ cfg.alpha0)
    (hr : 0 ≤ cfg.reg) {X : CSR ℝ} {V : Factor K} (sc : SolverConfig) (hs : sc.solverType ≠ .ialspp)
    (F F' : Factor K) (hX : ∀ r, r < F.n → NonNegRow (X.row r))
    (h : solverStep ω cfg sc (gramP cfg V) X V F = .ok F') (r : Nat) (hr' : r < F.n) :
    computeReg cfg (X.row r).length V.n * normSq (F.row r - F'.row r) ≤
      rowQ cfg X V 0 r (F.row r) - rowQ cfg X V 0 r (F'.row r) := by
  unfold solverStep at h
  cases hst : sc.solverType with
  | cg =>
    rw [hst] at h
    exact cgRow_gain ha hr sc (hX r hr') _ _ ((stepCg_row hω hT h).2 r hr')
  | cholesky =>
    rw [hst] at h
    obtain ⟨hn, hrow⟩ := stepCholesky_row hω hT F F' _ h
    have hm := choleskyRow_min ha hr (hX r hr') _ (hrow r hr')
    rw [normSq_eq]
    refine (rowMat_lower ha (hX r hr') _).trans ?_
    have := quad_add (rowMat_symm (V := V) (X := X) ha hr r) (sysRhs cfg V (X.row r) 0) (F'.row r) (F.row r - F'.row r)
    rw [add_sub_cancel, hm.2, sub_self, dotProduct_zero] at this
    unfold rowQ
    rw [smul_zero]
    linarith
  | ialspp => exact absurd hst hs

theorem loss_gain {cfg : Config} {X : CSR ℝ} (hv : Valid cfg X) (V : Factor K) (hV : V.n = X.cols)
    (A A' : Nat → Vec K) (g : Nat → ℝ)
    (h : ∀ r, r < X.nrows → g r ≤ rowQ cfg X V 0 r (A r) - rowQ cfg X V 0 r (A' r)) :
    1 / 2 * ∑ r ∈ Finset.range X.nrows, g r ≤
      loss (paramsOf cfg) (Data.ofCSR X) A V.row - loss (paramsOf cfg) (Data.ofCSR X) A' V.row := by
  rw [loss_eq_priorLoss, loss_eq_priorLoss, priorLoss_eq, priorLoss_eq]
  have : ∑ r ∈ Finset.range X.nrows, g r ≤
      ∑ r ∈ Finset.range (Data.ofCSR X).U, rowObj (paramsOf cfg) (Data.ofCSR X) 0 V.row r (A r) -
      ∑ r ∈ Finset.range (Data.ofCSR X).U, rowObj (paramsOf cfg) (Data.ofCSR X) 0 V.row r (A' r) := by
    rw [← Finset.sum_sub_distrib]
    refine Finset.sum_le_sum (fun r hr => ?_)
    rw [rowObj_ofCSR cfg X hv.proper V hV, rowObj_ofCSR cfg X hv.proper V hV]
    have := h r (Finset.mem_range.mp hr)
    unfold rowQ at this
    linarith
  linarith

theorem Valid.transpose {cfg : Config} {X : CSR ℝ} (hv : Valid cfg X) : Valid cfg (transpose X) :=
  ⟨Sim.transpose_proper X hv.proper, transpose_nonNeg hv.nonneg, hv.reg, hv.alpha0⟩

/-- the two solver calls of an epoch without features -/
theorem epoch_plain {ω : Oracle T} (hω : ω.Complete) {cfg : Config} {X : CSR ℝ} (hv : Valid cfg X)
    {sc : SolverConfig} {tr tr' : Trainer K} (hr : tr.Reached cfg X) (hf : tr.featureAware = false)
    (h : tr.step ω sc = .ok tr') :
    0 < T ∧ tr.user.n = X.nrows ∧ tr.item.n = X.cols ∧ tr'.user.n = X.nrows ∧ tr'.item.n = X.cols ∧
    solverStep ((ω.at 0).at 1) cfg sc (gramP cfg tr.item) X tr.item tr.user = .ok tr'.user ∧
    solverStep ((ω.at 1).at 1) cfg sc (gramP cfg tr'.user) (transpose X) tr'.user tr.item = .ok tr'.item := by
  obtain ⟨hg, hc, hx⟩ := reached_good hv hr
  obtain ⟨hg', hc', hx'⟩ := reached_good hv (.step ω sc tr tr' hω hr h)
  unfold Trainer.step at h
  rw [if_neg (by simp [hf])] at h
  obtain ⟨tr₁, h1, h⟩ := bind_ok h
  obtain ⟨tr₂, h2, h⟩ := bind_ok h
  cases h
  obtain ⟨hT, user, s1, rfl⟩ := stepUser_plain (hω.at 0) sc tr tr₁ hf h1
  obtain ⟨-, item, s2, rfl⟩ := stepItem_plain (hω.at 1) sc { tr with user := user } tr₂ hf h2
  have hx'' : tr.X = X := hx
  rw [hc, hx] at s1
  simp only at s2
  rw [hc, hg.Xt, hx] at s2
  refine ⟨hT, ?_, ?_, ?_, ?_, s1, s2⟩
  · rw [hg.un, hx]
  · rw [hg.vn, hx]
  · rw [← hx]; exact hg'.un
  · rw [← hx]; exact hg'.vn

/-- an epoch by Cholesky or conjugate gradient -/
theorem epoch_gain {ω : Oracle T} (hω : ω.Complete) {cfg : Config} {X : CSR ℝ} (hv : Valid cfg X)
    {sc : SolverConfig} (hs : sc.solverType ≠ .ialspp) {tr tr' : Trainer K} (hr : tr.Reached cfg X)
    (hf : tr.featureAware = false) (h : tr.step ω sc = .ok tr') :
    movement (paramsOf cfg) (Data.ofCSR X) tr.user.row tr.item.row tr'.user.row tr'.item.row ≤
      loss (paramsOf cfg) (Data.ofCSR X) tr.user.row tr.item.row -
      loss (paramsOf cfg) (Data.ofCSR X) tr'.user.row tr'.item.row := by
  obtain ⟨hT, un, vn, un', vn', s1, s2⟩ := epoch_plain hω hv hr hf h
  have g1 := solverStep_gain ((hω.at 0).at 1) hT hv.alpha0 hv.reg sc hs _ _
    (fun r _ => nonNeg_row hv.nonneg r) s1
  have g2 := solverStep_gain ((hω.at 1).at 1) hT hv.alpha0 hv.reg sc hs _ _
    (fun r _ => nonNeg_row hv.transpose.nonneg r) s2
  have l1 := loss_gain hv tr.item vn tr.user.row tr'.user.row
    (fun u => userWeight (paramsOf cfg) (Data.ofCSR X) u * normSq (tr.user.row u - tr'.user.row u))
    (fun r hr => by rw [weight_ofCSR cfg X hv.proper, ← vn]; exact g1 r (by rw [un]; exact hr))
  have l2 := loss_gain hv.transpose tr'.user un' tr.item.row tr'.item.row
    (fun i => itemWeight (paramsOf cfg) (Data.ofCSR X) i * normSq (tr.item.row i - tr'.item.row i))
    (fun r hr => by
      rw [itemWeight_ofCSR cfg X hv.proper, ← un']
      exact g2 r (by rw [vn]; rw [Sim.transpose_nrows] at hr; exact hr))
  rw [ofCSR_transpose X hv.proper, loss_swap, loss_swap, Sim.transpose_nrows] at l2
  unfold movement
  have e1 : (Data.ofCSR X).U = X.nrows := rfl
  have e2 : (Data.ofCSR X).I = X.cols := rfl
  rw [e1, e2]
  linarith

/-- one solver call with conjugate gradients that gains almost nothing changes nothing -/
theorem side_stop {ω : Oracle T} (hω : ω.Complete) (hT : 0 < T) {cfg : Config} {X : CSR ℝ} (hv : Valid cfg X)
    {sc : SolverConfig} (hs : sc.solverType = .cg) {V F F' : Factor K} (hV : V.n = X.cols) (hF : F.n = X.nrows)
    (h : solverStep ω cfg sc (gramP cfg V) X V F = .ok F') (L : ℝ) (hL0 : 0 < L)
    (hL : ∀ r < X.nrows, ∀ z : Vec K, z ⬝ᵥ (rowMat cfg (gramP cfg V) X V r).mulVec z ≤ L * (z ⬝ᵥ z))
    (he : ∀ r < X.nrows, X.row r = [] → F.row r = 0)
    (hd : 2 * (loss (paramsOf cfg) (Data.ofCSR X) F.row V.row -
      loss (paramsOf cfg) (Data.ofCSR X) F'.row V.row) * L < cgEps) (r : Nat) (hr : r < X.nrows) :
    F'.row r = F.row r ∧
    normSq (systemRhs (paramsOf cfg) (Data.ofCSR X) V.row r -
      systemAt (paramsOf cfg) (Data.ofCSR X) V.row r (F.row r)) ≤ cgEps := by
  have g1 := solverStep_gain hω hT hv.alpha0 hv.reg sc (by rw [hs]; decide) _ _
    (fun r _ => nonNeg_row hv.nonneg r) h
  have hpos : ∀ r' < X.nrows, 0 ≤ rowQ cfg X V 0 r' (F.row r') - rowQ cfg X V 0 r' (F'.row r') := fun r' hr' =>
    (mul_nonneg (computeReg_nonneg cfg hv.reg hv.alpha0 _ _) (normSq_nonneg _)).trans
      (g1 r' (by rw [hF]; exact hr'))
  have l1 := loss_gain hv V hV F.row F'.row
    (fun r' => if r' = r then rowQ cfg X V 0 r' (F.row r') - rowQ cfg X V 0 r' (F'.row r') else 0) (by
      intro r' hr'
      by_cases hrr : r' = r
      · simp [hrr]
      · simp only [if_neg hrr]; exact hpos r' hr')
  rw [Finset.sum_ite_eq' , if_pos (Finset.mem_range.mpr hr)] at l1
  rw [system_residual cfg X hv.proper V hV]
  unfold solverStep at h
  rw [hs] at h
  have hrow := (stepCg_row hω hT h).2 r (by rw [hF]; exact hr)
  by_cases hne : X.row r = []
  · have h0 := he r hr hne
    have hb : sysRhs cfg V (X.row r) 0 = 0 := by rw [hne]; simp [sysRhs]
    rw [hb, h0, Matrix.mulVec_zero, sub_zero, zero_dotProduct]
    refine ⟨?_, by unfold cgEps; positivity⟩
    unfold cgRow at hrow
    simp only at hrow
    rw [if_pos (by simp [hne])] at hrow
    exact (Except.ok.inj hrow).symm
  · refine cgRow_stop hv.alpha0 hv.reg sc hne _ _ L (hL r hr) hrow ?_
    nlinarith

/-- conjugate gradients set the embedding of an empty row to zero -/
theorem side_empty {ω : Oracle T} (hω : ω.Complete) (hT : 0 < T) {cfg : Config} {X : CSR ℝ}
    {sc : SolverConfig} (hs : sc.solverType = .cg) {V F F' : Factor K} (hF : F.n = X.nrows)
    (h : solverStep ω cfg sc (gramP cfg V) X V F = .ok F') (r : Nat) (hr : r < X.nrows) (hne : X.row r = []) :
    F'.row r = 0 := by
  unfold solverStep at h
  rw [hs] at h
  have hrow := (stepCg_row hω hT h).2 r (by rw [hF]; exact hr)
  unfold cgRow at hrow
  simp only at hrow
  rw [if_pos (by simp [hne])] at hrow
  exact (Except.ok.inj hrow).symm

end Irspack.Ials
