import Verif.Proofs.IalsGain
import Verif.Proofs.IalsFeature

/-! # What a half-epoch of feature-aware training gains -/

namespace Irspack.Ials

open Spec.Ials Matrix Filter Topology

variable {K T : Nat}

theorem cgRow_gain_prior {cfg : Config} (ha : 0 ≤ cfg.alpha0) (hr : 0 ≤ cfg.reg) {X : CSR ℝ} {V : Factor K}
    (sc : SolverConfig) {r : Nat} (hX : NonNegRow (X.row r)) (q x y : Vec K)
    (h : cgRow cfg sc (gramP cfg V) V (some q) (X.row r) x = .ok y) :
    computeReg cfg (X.row r).length V.n * normSq (x - y) ≤ rowQ cfg X V q r x - rowQ cfg X V q r y := by
  rw [normSq_eq]
  refine (rowMat_lower ha hX (x - y)).trans ?_
  rw [cgRow_eq cfg sc _ V (some q) _ x (by simp)] at h
  simp only [priorRhs] at h
  obtain ⟨j, hj0, hj, rfl, hruns, hend⟩ := cgLoop_ok _ _ x cgEps (by unfold cgEps; positivity) _ 0 y h
  have := cgSeq_gain _ (rowMat_symm ha hr r) _ x j (fun i hi => (hruns i (Nat.zero_le i) hi).1)
  unfold rowQ
  exact this.ge

theorem solverStepPrior_gain {ω : Oracle T} (hω : ω.Complete) (hT : 0 < T) {cfg : Config} (ha : 0 ≤ cfg.alpha0)
    (hr : 0 ≤ cfg.reg) {X : CSR ℝ} {V : Factor K} (sc : SolverConfig)
    (Q F F' : Factor K) (hX : ∀ r, r < F.n → NonNegRow (X.row r))
    (h : solverStepPrior ω cfg sc (gramP cfg V) X V Q F = .ok F') (r : Nat) (hr' : r < F.n) :
    computeReg cfg (X.row r).length V.n * normSq (F.row r - F'.row r) ≤
      rowQ cfg X V (Q.row r) r (F.row r) - rowQ cfg X V (Q.row r) r (F'.row r) := by
  cases hst : sc.solverType with
  | cg =>
    obtain ⟨-, -, hrow⟩ := solverStepPrior_cg hω hT hst h
    exact cgRow_gain_prior ha hr sc (hX r hr') _ _ _ (hrow r hr')
  | cholesky =>
    obtain ⟨-, -, hrow⟩ := solverStepPrior_cholesky hω hT hst h
    have hm := choleskyPriorRow_min ha hr _ (hX r hr') _ (hrow r hr')
    rw [normSq_eq]
    refine (rowMat_lower ha (hX r hr') _).trans ?_
    have := quad_add (rowMat_symm (V := V) (X := X) ha hr r)
      (sysRhs cfg V (X.row r) (computeReg cfg (X.row r).length V.n • Q.row r)) (F'.row r) (F.row r - F'.row r)
    rw [add_sub_cancel, hm.2, sub_self, dotProduct_zero] at this
    unfold rowQ
    linarith
  | ialspp =>
    unfold solverStepPrior at h
    split at h
    · cases h
    · rw [hst] at h
      cases h

theorem priorLoss_gain {cfg : Config} {X : CSR ℝ} (hv : Valid cfg X) (V : Factor K) (hV : V.n = X.cols)
    (q qB A A' : Nat → Vec K) (g : Nat → ℝ)
    (h : ∀ r, r < X.nrows → g r ≤ rowQ cfg X V (q r) r (A r) - rowQ cfg X V (q r) r (A' r)) :
    1 / 2 * ∑ r ∈ Finset.range X.nrows, g r ≤
      priorLoss (paramsOf cfg) (Data.ofCSR X) q qB A V.row -
      priorLoss (paramsOf cfg) (Data.ofCSR X) q qB A' V.row := by
  rw [priorLoss_eq, priorLoss_eq]
  have : ∑ r ∈ Finset.range X.nrows, g r ≤
      ∑ r ∈ Finset.range (Data.ofCSR X).U, rowObj (paramsOf cfg) (Data.ofCSR X) (q r) V.row r (A r) -
      ∑ r ∈ Finset.range (Data.ofCSR X).U, rowObj (paramsOf cfg) (Data.ofCSR X) (q r) V.row r (A' r) := by
    rw [← Finset.sum_sub_distrib]
    refine Finset.sum_le_sum (fun r hr => ?_)
    rw [rowObj_ofCSR cfg X hv.proper V hV, rowObj_ofCSR cfg X hv.proper V hV]
    have := h r (Finset.mem_range.mp hr)
    unfold rowQ at this
    linarith
  linarith

/-- replacing the weights by the ridge solution gains the weighted squared distance -/
theorem updateFeatureWeight_gain {ω : Oracle T} (hω : ω.Complete) (cfg : Config) (hr : 0 ≤ cfg.reg)
    (ha : 0 ≤ cfg.alpha0) (feat : Features) (hne : feat.cols ≠ 0) (F : Factor K) (W W' : Weight K)
    (lam : ℝ) (X : CSR ℝ) (other : Nat) (cache cache' : Option (Cache feat.cols))
    (hcache : CacheOk cfg feat lam X other cache)
    (h : updateFeatureWeight ω cfg feat F W lam X other cache = .ok (W', cache'))
    (W'' : Nat → Vec K) :
    lam * weightNormSq feat.cols (fun f => W'' f - W'.val f) ≤
      sideLoss feat.rows feat.cols (fun r => computeReg cfg (X.row r).length other) feat.val lam
        F.row W'' -
      sideLoss feat.rows feat.cols (fun r => computeReg cfg (X.row r).length other) feat.val lam
        F.row W'.val := by
  classical
  unfold updateFeatureWeight at h
  rw [if_neg hne] at h
  obtain ⟨c, hc, h2⟩ := bind_ok h
  obtain ⟨W₁, hW, h3⟩ := bind_ok h2
  cases h3
  have hcok := featureCache_ok hcache hc
  obtain ⟨h4, h5, h6⟩ := solveFeatureWeight_col hω feat F W W' c hW
  have hpd := hcok.2
  have hg := gram_eq cfg feat lam X other hr ha
  rw [hcok.1, hg] at hpd
  have key : ∀ k : Fin K, (sysMat 0 (ridgeEnts feat fun r => computeReg cfg (X.row r).length other)
      lam).mulVec (fun f => W'.val f.val k) = fun f => ∑ r ∈ Finset.range feat.rows,
        feat.val r f.val * (F.row r k * computeReg cfg (X.row r).length other) := by
    intro k
    have h7 := h6 k
    rw [hcok.1] at h7
    unfold Cache.solve at h7
    rw [hg] at h7
    have hsol := hpd.solve (fun f => ∑ r ∈ Finset.range feat.rows,
      feat.val r f.val * (F.row r k * (initCache cfg feat lam X other).rowWeights r))
    rw [← h7] at hsol
    exact hsol
  have hW : weightNormSq feat.cols (fun f => W'' f - W'.val f) = ∑ k : Fin K,
      ((fun f : Fin feat.cols => W'' f.val k) - fun f => W'.val f.val k) ⬝ᵥ
      ((fun f : Fin feat.cols => W'' f.val k) - fun f => W'.val f.val k) := by
    unfold weightNormSq normSq
    rw [Finset.sum_comm]
    refine Finset.sum_congr rfl (fun k _ => ?_)
    rw [Finset.sum_range (fun f => (W'' f - W'.val f) k ^ 2)]
    exact Finset.sum_congr rfl (fun f _ => sq _)
  rw [sideLoss_eq, sideLoss_eq, hW, Finset.mul_sum, ← Finset.sum_sub_distrib]
  refine Finset.sum_le_sum (fun k _ => ?_)
  have := quad_add (sysMat_symm 0 (fun _ _ => rfl)
    (ridgeEnts feat fun r => computeReg cfg (X.row r).length other) lam)
    (fun f => ∑ r ∈ Finset.range feat.rows,
      feat.val r f.val * (F.row r k * computeReg cfg (X.row r).length other))
    (fun f => W'.val f.val k) ((fun f => W'' f.val k) - fun f => W'.val f.val k)
  rw [add_sub_cancel, key k, sub_self, dotProduct_zero, sysMat_quad] at this
  have hnn : 0 ≤ ((ridgeEnts feat fun r => computeReg cfg (X.row r).length other).map
      (fun e => e.2 * (e.1 ⬝ᵥ ((fun f : Fin feat.cols => W'' f.val k) - fun f => W'.val f.val k)) ^ 2)).sum := by
    apply List.sum_nonneg
    intro z hz
    obtain ⟨e, he, rfl⟩ := List.mem_map.mp hz
    obtain ⟨r, -, rfl⟩ := List.mem_map.mp he
    exact mul_nonneg (computeReg_nonneg cfg hr ha _ _) (sq_nonneg _)
  rw [Matrix.zero_mulVec, dotProduct_zero] at this
  linarith

theorem featureLoss_swap (p : Params) (D : Data) (lu li : ℝ) (nU : Nat) (FU : Nat → Nat → ℝ)
    (WU : Nat → Vec K) (nI : Nat) (FI : Nat → Nat → ℝ) (WI A B : Nat → Vec K) :
    featureLoss p D.swap li lu nI FI WI nU FU WU B A = featureLoss p D lu li nU FU WU nI FI WI A B := by
  unfold featureLoss
  rw [priorLoss_swap]
  ring

/-- what one half of an epoch does to one side: embeddings `F`, weights `W` -/
def Half (cfg : Config) (sc : SolverConfig) (X : CSR ℝ) (V : Factor K) (feat : Features) (lam : ℝ)
    (warm : Prop) (F F' : Factor K) (W W' : Weight K) : Prop :=
  ∃ (T : Nat) (ω : Oracle T), ω.Complete ∧ 0 < T ∧
    ((feat.cols ≠ 0 ∧ feat.rows = X.nrows ∧ 
      solverStepPrior ω cfg sc (gramP cfg V) X V (featureTimesWeight feat W) F = .ok F' ∧
      ∃ (ω' : Oracle T) (cache cache' : Option (Cache feat.cols)), ω'.Complete ∧
        CacheOk cfg feat lam X V.n cache ∧
        updateFeatureWeight ω' cfg feat F' W lam X V.n cache = .ok (W', cache')) ∨
     ((feat.cols = 0 ∨ warm ∧ ∀ f, W.val f = 0) ∧
      solverStep ω cfg sc (gramP cfg V) X V F = .ok F' ∧ W' = W))

theorem Half.size {cfg : Config} {sc : SolverConfig} {X : CSR ℝ} (hv : Valid cfg X) {V : Factor K}
    {feat : Features} {lam : ℝ}
    {warm : Prop} {F F' : Factor K} {W W' : Weight K} (h : Half cfg sc X V feat lam warm F F' W W') :
    F'.n = F.n := by
  obtain ⟨T, ω, hω, hT, h⟩ := h
  rcases h with ⟨-, -, h1, -⟩ | ⟨-, h1, -⟩
  · exact (solverStepPrior_descent hv.alpha0 hv.reg hω hT sc _ _ _ (fun r _ => nonNeg_row hv.nonneg r) h1).1
  · exact (solverStep_descent hv.alpha0 hv.reg hω hT sc _ _ (fun r _ => nonNeg_row hv.nonneg r) h1).1

/-- the gain of a half-epoch -/
theorem Half.gain {cfg : Config} {sc : SolverConfig} {X : CSR ℝ} (hv : Valid cfg X) (hs : sc.solverType ≠ .ialspp)
    {V : Factor K} (hV : V.n = X.cols) {feat : Features} {lam : ℝ} {warm : Prop} {F F' : Factor K}
    (hF : F.n = X.nrows) {W W' : Weight K} (h : Half cfg sc X V feat lam warm F F' W W')
    (li : ℝ) (nI : Nat) (FI : Nat → Nat → ℝ) (WI : Nat → Vec K) :
    1 / 2 * ∑ u ∈ Finset.range X.nrows, userWeight (paramsOf cfg) (Data.ofCSR X) u *
        normSq (F.row u - F'.row u) +
      1 / 2 * (lam * weightNormSq feat.cols (fun f => W.val f - W'.val f)) ≤
    featureLoss (paramsOf cfg) (Data.ofCSR X) lam li feat.cols feat.val W.val nI FI WI F.row V.row -
    featureLoss (paramsOf cfg) (Data.ofCSR X) lam li feat.cols feat.val W'.val nI FI WI F'.row V.row := by
  obtain ⟨T, ω, hω, hT, h⟩ := h
  rcases h with ⟨hne, hrows, h1, ω', c, c', hω', hco, h2⟩ | ⟨hz, h1, rfl⟩
  · have g1 := priorLoss_gain hv V hV (predicted feat.cols feat.val W.val) (predicted nI FI WI) F.row F'.row
      (fun u => userWeight (paramsOf cfg) (Data.ofCSR X) u * normSq (F.row u - F'.row u)) (fun r hr => by
        rw [weight_ofCSR cfg X hv.proper, ← hV]
        exact solverStepPrior_gain hω hT hv.alpha0 hv.reg sc _ _ _ (fun r _ => nonNeg_row hv.nonneg r) h1 r
          (by rw [hF]; exact hr))
    have g2 := updateFeatureWeight_gain hω' cfg hv.reg hv.alpha0 feat hne F' W W' lam X V.n c c' hco h2 W.val
    have hwt : userWeight (paramsOf cfg) (Data.ofCSR X) =
        fun r => computeReg cfg (X.row r).length V.n := by
      funext u; rw [weight_ofCSR cfg X hv.proper, hV]
    have hU : (Data.ofCSR X).U = X.nrows := rfl
    rw [hrows, ← hwt, ← hU] at g2
    have e1 := featureLoss_user (paramsOf cfg) (Data.ofCSR X) lam li feat.cols feat.val W.val nI FI WI
      F'.row V.row
    have e2 := featureLoss_user (paramsOf cfg) (Data.ofCSR X) lam li feat.cols feat.val W'.val nI FI WI
      F'.row V.row
    have e3 : featureLoss (paramsOf cfg) (Data.ofCSR X) lam li feat.cols feat.val W.val nI FI WI F.row V.row -
        featureLoss (paramsOf cfg) (Data.ofCSR X) lam li feat.cols feat.val W.val nI FI WI F'.row V.row =
        priorLoss (paramsOf cfg) (Data.ofCSR X) (predicted feat.cols feat.val W.val) (predicted nI FI WI)
          F.row V.row -
        priorLoss (paramsOf cfg) (Data.ofCSR X) (predicted feat.cols feat.val W.val) (predicted nI FI WI)
          F'.row V.row := by
      unfold featureLoss
      ring
    rw [← e3] at g1
    linarith
  · have hp : ∀ r, predicted feat.cols feat.val W'.val r = 0 :=
      predicted_zero _ _ _ (hz.imp id And.right)
    have g1 := priorLoss_gain hv V hV (predicted feat.cols feat.val W'.val) (predicted nI FI WI) F.row F'.row
      (fun u => userWeight (paramsOf cfg) (Data.ofCSR X) u * normSq (F.row u - F'.row u)) (fun r hr => by
        rw [weight_ofCSR cfg X hv.proper, ← hV, hp]
        exact solverStep_gain hω hT hv.alpha0 hv.reg sc hs _ _ (fun r _ => nonNeg_row hv.nonneg r) h1 r
          (by rw [hF]; exact hr))
    have h0 : weightNormSq feat.cols (fun f => W'.val f - W'.val f) = 0 := by
      simp [weightNormSq, normSq]
    rw [h0]
    unfold featureLoss
    linarith

/-- with Cholesky, the new embeddings are the best for the old weights, the new weights the best for the
new embeddings -/
theorem Half.cholesky {cfg : Config} {sc : SolverConfig} {X : CSR ℝ} (hv : Valid cfg X)
    (hs : sc.solverType = .cholesky)
    {V : Factor K} (hV : V.n = X.cols) {feat : Features} {lam : ℝ} (hlam : feat.cols ≠ 0 → 0 < lam)
    {warm : Prop} (hw : ¬ warm) {F F' : Factor K}
    (hF : F.n = X.nrows) {W W' : Weight K} (h : Half cfg sc X V feat lam warm F F' W W')
    (li : ℝ) (nI : Nat) (FI : Nat → Nat → ℝ) (WI : Nat → Vec K) :
    (∀ A, featureLoss (paramsOf cfg) (Data.ofCSR X) lam li feat.cols feat.val W.val nI FI WI F'.row V.row ≤
      featureLoss (paramsOf cfg) (Data.ofCSR X) lam li feat.cols feat.val W.val nI FI WI A V.row) ∧
    ∀ W'', featureLoss (paramsOf cfg) (Data.ofCSR X) lam li feat.cols feat.val W'.val nI FI WI F'.row V.row ≤
      featureLoss (paramsOf cfg) (Data.ofCSR X) lam li feat.cols feat.val W'' nI FI WI F'.row V.row := by
  obtain ⟨T, ω, hω, hT, h⟩ := h
  rcases h with ⟨hne, hrows, h1, ω', c, c', hω', hco, h2⟩ | ⟨hz, h1, rfl⟩
  · refine ⟨fun A => ?_, fun W'' => ?_⟩
    · obtain ⟨-, -, hrow⟩ := solverStepPrior_cholesky hω hT hs h1
      have g1 := priorLoss_gain hv V hV (predicted feat.cols feat.val W.val) (predicted nI FI WI) A F'.row
        (fun u => 0) (fun r hr => by
          have hm := choleskyPriorRow_min hv.alpha0 hv.reg _ (nonNeg_row hv.nonneg r) _
            (hrow r (by rw [hF]; exact hr))
          exact sub_nonneg.mpr (rowQ_min hv.alpha0 hv.reg (nonNeg_row hv.nonneg r) _ _ hm.2 _))
      simp only [Finset.sum_const_zero, mul_zero] at g1
      unfold featureLoss
      linarith
    · have g2 := updateFeatureWeight_gain hω' cfg hv.reg hv.alpha0 feat hne F' W W' lam X V.n c c' hco h2 W''
      have hwt : userWeight (paramsOf cfg) (Data.ofCSR X) =
          fun r => computeReg cfg (X.row r).length V.n := by
        funext u; rw [weight_ofCSR cfg X hv.proper, hV]
      have hU : (Data.ofCSR X).U = X.nrows := rfl
      rw [hrows, ← hwt, ← hU] at g2
      rw [featureLoss_user, featureLoss_user]
      have : 0 ≤ lam * weightNormSq feat.cols (fun f => W'' f - W'.val f) :=
        mul_nonneg (hlam hne).le (Finset.sum_nonneg (fun _ _ => normSq_nonneg _))
      linarith
  · have h0 : feat.cols = 0 := hz.resolve_right (fun h => hw h.1)
    have hp : ∀ W r, predicted (K := K) feat.cols feat.val W r = 0 := fun W => predicted_zero _ _ _ (Or.inl h0)
    refine ⟨fun A => ?_, fun W'' => ?_⟩
    · unfold solverStep at h1
      rw [hs] at h1
      obtain ⟨-, hrow⟩ := stepCholesky_row hω hT _ _ _ h1
      have g1 := priorLoss_gain hv V hV (predicted feat.cols feat.val W'.val) (predicted nI FI WI) A F'.row
        (fun u => 0) (fun r hr => by
          have hm := choleskyRow_min hv.alpha0 hv.reg (nonNeg_row hv.nonneg r) _
            (hrow r (by rw [hF]; exact hr))
          rw [hp]
          exact sub_nonneg.mpr (rowQ_min hv.alpha0 hv.reg (nonNeg_row hv.nonneg r) _ _
            (by rw [smul_zero]; exact hm.2) _))
      simp only [Finset.sum_const_zero, mul_zero] at g1
      unfold featureLoss
      linarith
    · have e1 : predicted (K := K) feat.cols feat.val W'.val = predicted feat.cols feat.val W'' := by
        funext r; rw [hp, hp]
      unfold featureLoss
      rw [e1, h0]
      simp [weightNormSq]

/-- the two halves of an epoch -/
theorem epoch_halves {ω : Oracle T} (hω : ω.Complete) {cfg : Config} {X : CSR ℝ} (hv : Valid cfg X)
    {sc : SolverConfig} {tr tr' : Trainer K} (hr : tr.Reached cfg X) (h : tr.step ω sc = .ok tr') :
    tr.user.n = X.nrows ∧ tr.item.n = X.cols ∧ tr'.user.n = X.nrows ∧ tr'.item.n = X.cols ∧
    tr'.userF = tr.userF ∧ tr'.itemF = tr.itemF ∧ tr'.epoch = tr.epoch + 1 ∧
    (tr.featureAware = true → sc.solverType ≠ .ialspp) ∧
    Half cfg sc X tr.item tr.userF cfg.lambdaUser (tr.epoch < cfg.warmup) tr.user tr'.user tr.userW tr'.userW ∧
    Half cfg sc (transpose X) tr'.user tr.itemF cfg.lambdaItem (tr.epoch < cfg.warmup) tr.item tr'.item
      tr.itemW tr'.itemW := by
  obtain ⟨hg, hc, hx⟩ := reached_good hv hr
  unfold Trainer.step at h
  split at h
  · cases h
  rename_i hpp
  obtain ⟨tr₁, h1, h⟩ := bind_ok h
  obtain ⟨tr₂, h2, h⟩ := bind_ok h
  cases h
  have hpv : Spec.Sim.Proper tr.X := hx ▸ hv.proper
  have hnn : ∀ row ∈ tr.X.rows, NonNegRow row := hx ▸ hv.nonneg
  obtain ⟨g1, c1, x1, e1, f1, uf1, if1, i1, iw1, -⟩ := stepUser_good (hω.at 0) tr tr₁ hg h1 hpv hnn
    (hc ▸ hv.reg) (hc ▸ hv.alpha0)
  obtain ⟨g2, c2, x2, e2, f2, uf2, if2, u2, uw2, -⟩ := stepItem_good (hω.at 1) tr₁ tr₂ g1 h2 (x1 ▸ hpv)
    (x1 ▸ hnn) (by rw [c1, hc]; exact hv.reg) (by rw [c1, hc]; exact hv.alpha0)
  have hx1 : tr₁.X = X := x1.trans hx
  have hc1 : tr₁.cfg = cfg := c1.trans hc
  refine ⟨by rw [hg.un, hx], by rw [hg.vn, hx], ?_, ?_, ?_, ?_, ?_, ?_, ?_, ?_⟩
  · show tr₂.user.n = _
    rw [u2, g1.un, hx1]
  · show tr₂.item.n = _
    rw [g2.vn, x2, hx1]
  · exact uf2.trans uf1
  · exact if2.trans if1
  · show tr₂.epoch + 1 = tr.epoch + 1
    rw [e2, e1]
  · exact fun hf hs => hpp ⟨hf, hs⟩
  · show Half cfg sc X tr.item tr.userF cfg.lambdaUser _ tr.user tr₂.user tr.userW tr₂.userW
    rw [u2, uw2]
    by_cases hb : tr.featureAware = true ∧ tr.cfg.warmup ≤ tr.epoch ∧ 0 < tr.userW.rows
    · obtain ⟨hT, user, w, c, s1, s2, rfl⟩ := stepUser_feature (hω.at 0) tr tr₁ hb h1
      refine ⟨T, _, (hω.at 0).at 1, hT, Or.inl ⟨?_, ?_, ?_, _, tr.userCache, c, (hω.at 0).at 2, ?_, ?_⟩⟩
      · rw [← hg.uW]; omega
      · rw [hg.uF hb.1, hx]
      · rw [hc, hx] at s1; exact s1
      · have := hg.uc; rw [hc, hx] at this; exact this
      · rw [hc, hx] at s2; exact s2
    · unfold Trainer.stepUser at h1
      obtain ⟨P, hP, h1⟩ := bind_ok h1
      have hT := pos_of_prepare hP
      rw [prepareP_eq ((hω.at 0).at 0) hT] at hP
      cases hP
      rw [if_neg hb] at h1
      obtain ⟨user, s1, h1⟩ := bind_ok h1
      cases h1
      rw [hc, hx] at s1
      refine ⟨T, _, (hω.at 0).at 1, hT, Or.inr ⟨?_, s1, rfl⟩⟩
      by_cases hf : tr.featureAware = true
      · by_cases hw : tr.cfg.warmup ≤ tr.epoch
        · left
          rw [← hg.uW]
          by_contra h0
          exact hb ⟨hf, hw, Nat.pos_of_ne_zero h0⟩
        · right
          exact ⟨by rw [← hc]; exact not_le.mp hw, (hg.warm (not_le.mp hw)).1⟩
      · left
        exact (hg.aware (by simpa using hf)).1
  · show Half cfg sc (transpose X) tr₂.user tr.itemF cfg.lambdaItem _ tr.item tr₂.item tr.itemW tr₂.itemW
    rw [u2, ← i1, ← iw1, ← if1, ← e1]
    by_cases hb : tr₁.featureAware = true ∧ tr₁.cfg.warmup ≤ tr₁.epoch ∧ 0 < tr₁.itemW.rows
    · obtain ⟨hT, item, w, c, s1, s2, rfl⟩ := stepItem_feature (hω.at 1) tr₁ tr₂ hb h2
      refine ⟨T, _, (hω.at 1).at 1, hT, Or.inl ⟨?_, ?_, ?_, _, tr₁.itemCache, c, (hω.at 1).at 2, ?_, ?_⟩⟩
      · rw [← g1.iW]; omega
      · rw [g1.iF hb.1, hx1, Sim.transpose_nrows]
      · rw [hc1, g1.Xt, hx1] at s1; exact s1
      · have := g1.ic; rw [hc1, g1.Xt, hx1] at this; exact this
      · rw [hc1, g1.Xt, hx1] at s2; exact s2
    · unfold Trainer.stepItem at h2
      obtain ⟨P, hP, h2⟩ := bind_ok h2
      have hT := pos_of_prepare hP
      rw [prepareP_eq ((hω.at 1).at 0) hT] at hP
      cases hP
      rw [if_neg hb] at h2
      obtain ⟨item, s1, h2⟩ := bind_ok h2
      cases h2
      rw [hc1, g1.Xt, hx1] at s1
      refine ⟨T, _, (hω.at 1).at 1, hT, Or.inr ⟨?_, s1, rfl⟩⟩
      by_cases hf : tr₁.featureAware = true
      · by_cases hw : tr₁.cfg.warmup ≤ tr₁.epoch
        · left
          rw [← g1.iW]
          by_contra h0
          exact hb ⟨hf, hw, Nat.pos_of_ne_zero h0⟩
        · right
          exact ⟨by rw [← hc1]; exact not_le.mp hw, (g1.warm (not_le.mp hw)).2⟩
      · left
        exact (g1.aware (by simpa using hf)).2

end Irspack.Ials
