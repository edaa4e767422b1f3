import Verif.Props.IalsCold
import Verif.Proofs.IalsFeature

/-!
# C47: feature-aware iALS
-/

namespace Irspack.Ials

open Spec.Ials Matrix

variable {K T : Nat}

/-- The loss of a trainer with other user-feature weights `W`. -/
noncomputable def Trainer.lossWithUserWeights (tr : Trainer K) (W : Nat → Fin K → ℝ) : ℝ :=
  featureLoss (paramsOf tr.cfg) (Data.ofCSR tr.X) tr.cfg.lambdaUser tr.cfg.lambdaItem
    tr.userF.cols tr.userF.val W tr.itemF.cols tr.itemF.val tr.itemW.val tr.user.row tr.item.row

/-- The loss of a trainer with other item-feature weights `W`. -/
noncomputable def Trainer.lossWithItemWeights (tr : Trainer K) (W : Nat → Fin K → ℝ) : ℝ :=
  featureLoss (paramsOf tr.cfg) (Data.ofCSR tr.X) tr.cfg.lambdaUser tr.cfg.lambdaItem
    tr.userF.cols tr.userF.val tr.userW.val tr.itemF.cols tr.itemF.val W tr.user.row tr.item.row

/-- The loss of a trainer with other user embeddings `A`. -/
noncomputable def Trainer.lossWithUsers (tr : Trainer K) (A : Nat → Fin K → ℝ) : ℝ :=
  featureLoss (paramsOf tr.cfg) (Data.ofCSR tr.X) tr.cfg.lambdaUser tr.cfg.lambdaItem
    tr.userF.cols tr.userF.val tr.userW.val tr.itemF.cols tr.itemF.val tr.itemW.val A tr.item.row

/-- The loss of a trainer with other item embeddings `B`. -/
noncomputable def Trainer.lossWithItems (tr : Trainer K) (B : Nat → Fin K → ℝ) : ℝ :=
  featureLoss (paramsOf tr.cfg) (Data.ofCSR tr.X) tr.cfg.lambdaUser tr.cfg.lambdaItem
    tr.userF.cols tr.userF.val tr.userW.val tr.itemF.cols tr.itemF.val tr.itemW.val tr.user.row B

/-! ## The feature weights -/

/-- C47 (user-feature weights).  After the user half of an epoch in which features are used, the
user-feature weights minimise the whole loss over all weight matrices, and every other weight matrix is
strictly worse. -/
theorem C47_user_weights_optimal {ω : Oracle T} (hω : ω.Complete) (cfg : Config) (X : CSR ℝ)
    (hv : Valid cfg X) (sc : SolverConfig) (tr tr' : Trainer K) (hr : tr.Reached cfg X)
    (hf : tr.featureAware = true) (hw : cfg.warmup ≤ tr.epoch) (hn : 0 < tr.userF.cols)
    (h : tr.stepUser ω sc = .ok tr') (W : Nat → Fin K → ℝ) :
    tr'.specLoss ≤ tr'.lossWithUserWeights W ∧
      ((∃ f < tr.userF.cols, W f ≠ tr'.userW.val f) → tr'.specLoss < tr'.lossWithUserWeights W) := by
  obtain ⟨hg, hc, hx⟩ := reached_good hv hr
  obtain ⟨hT, user, w, c, _, h2, rfl⟩ := stepUser_feature hω tr tr'
    ⟨hf, by rw [hc]; exact hw, by rw [hg.uW]; exact hn⟩ h
  have hwt : userWeight (paramsOf tr.cfg) (Data.ofCSR tr.X) =
      fun r => computeReg tr.cfg (tr.X.row r).length tr.item.n := by
    funext u; rw [weight_ofCSR tr.cfg tr.X (hx ▸ hv.proper), hg.vn]
  have hU : (Data.ofCSR tr.X).U = tr.userF.rows := (hg.uF hf).symm
  have hmin := (updateFeatureWeight_min (hω.at 2) tr.cfg (hc ▸ hv.reg) (hc ▸ hv.alpha0) tr.userF hn.ne'
    user tr.userW w _ _ _ _ _ hg.uc h2).2.2.2 W
  refine ⟨?_, fun ⟨f, hf', hd⟩ => ?_⟩
  · unfold Trainer.specLoss Trainer.lossWithUserWeights
    simp only
    rw [featureLoss_user, featureLoss_user, hwt, hU]
    linarith
  · have hst := updateFeatureWeight_strict (hω.at 2) tr.cfg (hc ▸ hv.reg) (hc ▸ hv.alpha0) tr.userF hn.ne'
      user tr.userW w _ _ _ _ _ hg.uc h2 W f hf' hd
    unfold Trainer.specLoss Trainer.lossWithUserWeights
    simp only
    rw [featureLoss_user, featureLoss_user, hwt, hU]
    linarith

/-- C47 (item-feature weights).  The same for the item half. -/
theorem C47_item_weights_optimal {ω : Oracle T} (hω : ω.Complete) (cfg : Config) (X : CSR ℝ)
    (hv : Valid cfg X) (sc : SolverConfig) (tr tr' : Trainer K) (hr : tr.Reached cfg X)
    (hf : tr.featureAware = true) (hw : cfg.warmup ≤ tr.epoch) (hn : 0 < tr.itemF.cols)
    (h : tr.stepItem ω sc = .ok tr') (W : Nat → Fin K → ℝ) :
    tr'.specLoss ≤ tr'.lossWithItemWeights W ∧
      ((∃ f < tr.itemF.cols, W f ≠ tr'.itemW.val f) → tr'.specLoss < tr'.lossWithItemWeights W) := by
  obtain ⟨hg, hc, hx⟩ := reached_good hv hr
  obtain ⟨hT, item, w, c, _, h2, rfl⟩ := stepItem_feature hω tr tr'
    ⟨hf, by rw [hc]; exact hw, by rw [hg.iW]; exact hn⟩ h
  have hwt : itemWeight (paramsOf tr.cfg) (Data.ofCSR tr.X) =
      fun r => computeReg tr.cfg (tr.Xt.row r).length tr.user.n := by
    funext u; rw [itemWeight_ofCSR tr.cfg tr.X (hx ▸ hv.proper), hg.un, hg.Xt]
  have hU : (Data.ofCSR tr.X).I = tr.itemF.rows := (hg.iF hf).symm
  have hmin := (updateFeatureWeight_min (hω.at 2) tr.cfg (hc ▸ hv.reg) (hc ▸ hv.alpha0) tr.itemF hn.ne'
    item tr.itemW w _ _ _ _ _ hg.ic h2).2.2.2 W
  refine ⟨?_, fun ⟨f, hf', hd⟩ => ?_⟩
  · unfold Trainer.specLoss Trainer.lossWithItemWeights
    simp only
    rw [featureLoss_item, featureLoss_item, hwt, hU]
    linarith
  · have hst := updateFeatureWeight_strict (hω.at 2) tr.cfg (hc ▸ hv.reg) (hc ▸ hv.alpha0) tr.itemF hn.ne'
      item tr.itemW w _ _ _ _ _ hg.ic h2 W f hf' hd
    unfold Trainer.specLoss Trainer.lossWithItemWeights
    simp only
    rw [featureLoss_item, featureLoss_item, hwt, hU]
    linarith

/-! ## The embeddings -/

/-- C47 (descent).  With features the two halves of an epoch, each of which changes embeddings and
feature weights of one side, never increase the feature-aware loss, whatever the solver, the number of
threads and the interleaving. -/
theorem C47_halves_never_increase {ω : Oracle T} (hω : ω.Complete) (cfg : Config) (X : CSR ℝ)
    (hv : Valid cfg X) (sc : SolverConfig) (tr tr' : Trainer K) (hr : tr.Reached cfg X)
    (h : tr.stepUser ω sc = .ok tr' ∨ tr.stepItem ω sc = .ok tr') : tr'.specLoss ≤ tr.specLoss := by
  obtain ⟨hg, hc, hx⟩ := reached_good hv hr
  rcases h with h | h
  · exact (stepUser_good hω tr tr' hg h (hx ▸ hv.proper) (hx ▸ hv.nonneg) (hc ▸ hv.reg)
      (hc ▸ hv.alpha0)).2.2.2.2.2.2.2.2.2
  · exact (stepItem_good hω tr tr' hg h (hx ▸ hv.proper) (hx ▸ hv.nonneg) (hc ▸ hv.reg)
      (hc ▸ hv.alpha0)).2.2.2.2.2.2.2.2.2

/-- C47 (descent, observed).  The loss reported by `compute_loss` never increases over an epoch of a
feature-aware trainer. -/
theorem C47_epoch_never_increases {T₁ T₂ : Nat} {ω : Oracle T} {ω₁ : Oracle T₁} {ω₂ : Oracle T₂}
    (hω : ω.Complete) (hω₁ : ω₁.Complete) (hω₂ : ω₂.Complete) (hT₁ : 0 < T₁) (hT₂ : 0 < T₂)
    (cfg : Config) (X : CSR ℝ) (hv : Valid cfg X) (sc : SolverConfig) (tr tr' : Trainer K)
    (hr : tr.Reached cfg X) (_hf : tr.featureAware = true) (h : tr.step ω sc = .ok tr') :
    ∃ before after, tr.computeLoss ω₁ = .ok before ∧ tr'.computeLoss ω₂ = .ok after ∧
      after ≤ before :=
  C42_epoch_never_increases_partial hω hω₁ hω₂ hT₁ hT₂ cfg X hv sc tr tr' hr h

/-- C47 (user embeddings).  With features and the Cholesky solver, the new user embeddings minimise the
loss for the item embeddings and the user-feature weights at the start of the half-epoch, over all user
embeddings. -/
theorem C47_cholesky_users_optimal {ω : Oracle T} (hω : ω.Complete) (cfg : Config) (X : CSR ℝ)
    (hv : Valid cfg X) (sc : SolverConfig) (hs : sc.solverType = .cholesky) (tr tr' : Trainer K)
    (hr : tr.Reached cfg X) (hf : tr.featureAware = true) (hw : cfg.warmup ≤ tr.epoch)
    (hn : 0 < tr.userF.cols) (h : tr.stepUser ω sc = .ok tr') (A : Nat → Fin K → ℝ) :
    tr.lossWithUsers tr'.user.row ≤ tr.lossWithUsers A := by
  obtain ⟨hg, hc, hx⟩ := reached_good hv hr
  obtain ⟨hT, user, w, c, h1, _, rfl⟩ := stepUser_feature hω tr tr'
    ⟨hf, by rw [hc]; exact hw, by rw [hg.uW]; exact hn⟩ h
  obtain ⟨hun, _, hrow⟩ := solverStepPrior_cholesky (hω.at 1) hT hs h1
  have := priorLoss_le_of_rows tr.cfg tr.X (hx ▸ hv.proper) tr.item ⟨0, A⟩ user hg.vn
    (predicted tr.userF.cols tr.userF.val tr.userW.val)
    (predicted tr.itemF.cols tr.itemF.val tr.itemW.val) (fun r hr' => by
      have hnn := nonNeg_row (X := tr.X) (hx ▸ hv.nonneg) r
      have hm := choleskyPriorRow_min (hc ▸ hv.alpha0) (hc ▸ hv.reg) _ hnn _
        (hrow r (by rw [hg.un]; exact hr'))
      exact rowQ_min (hc ▸ hv.alpha0) (hc ▸ hv.reg) hnn _ _ hm.2 _)
  unfold Trainer.lossWithUsers featureLoss
  simp only
  linarith

/-- C47 (item embeddings).  The same for the items. -/
theorem C47_cholesky_items_optimal {ω : Oracle T} (hω : ω.Complete) (cfg : Config) (X : CSR ℝ)
    (hv : Valid cfg X) (sc : SolverConfig) (hs : sc.solverType = .cholesky) (tr tr' : Trainer K)
    (hr : tr.Reached cfg X) (hf : tr.featureAware = true) (hw : cfg.warmup ≤ tr.epoch)
    (hn : 0 < tr.itemF.cols) (h : tr.stepItem ω sc = .ok tr') (B : Nat → Fin K → ℝ) :
    tr.lossWithItems tr'.item.row ≤ tr.lossWithItems B := by
  obtain ⟨hg, hc, hx⟩ := reached_good hv hr
  obtain ⟨hT, item, w, c, h1, _, rfl⟩ := stepItem_feature hω tr tr'
    ⟨hf, by rw [hc]; exact hw, by rw [hg.iW]; exact hn⟩ h
  obtain ⟨hun, _, hrow⟩ := solverStepPrior_cholesky (hω.at 1) hT hs h1
  have := priorLoss_le_of_cols tr.cfg tr.X (hx ▸ hv.proper) tr.user ⟨0, B⟩ item hg.un
    (predicted tr.userF.cols tr.userF.val tr.userW.val)
    (predicted tr.itemF.cols tr.itemF.val tr.itemW.val) (fun r hr' => by
      have hnn := nonNeg_row (X := transpose tr.X) (transpose_nonNeg (hx ▸ hv.nonneg)) r
      have h3 := hrow r (by rw [hg.vn]; exact hr')
      rw [hg.Xt] at h3
      have hm := choleskyPriorRow_min (hc ▸ hv.alpha0) (hc ▸ hv.reg) _ hnn _ h3
      exact rowQ_min (hc ▸ hv.alpha0) (hc ▸ hv.reg) hnn _ _ hm.2 _)
  unfold Trainer.lossWithItems featureLoss
  simp only
  linarith

/-- C47 (warm-up).  Before `feature_warmup_epochs` epochs are over all feature weights are zero, so the
trainer is an ordinary one. -/
theorem C47_warmup (cfg : Config) (X : CSR ℝ) (hv : Valid cfg X) (tr : Trainer K)
    (hr : tr.Reached cfg X) (hw : tr.epoch < cfg.warmup) :
    (∀ f, tr.userW.val f = 0) ∧ (∀ f, tr.itemW.val f = 0) ∧
      tr.specLoss = loss (paramsOf cfg) (Data.ofCSR X) tr.user.row tr.item.row := by
  obtain ⟨hg, hc, hx⟩ := reached_good hv hr
  have hz := hg.warm (by rw [hc]; exact hw)
  refine ⟨hz.1, hz.2, ?_⟩
  unfold Trainer.specLoss featureLoss
  rw [loss_eq_priorLoss, funext (predicted_zero tr.userF.cols tr.userF.val tr.userW.val (Or.inr hz.1)),
    funext (predicted_zero tr.itemF.cols tr.itemF.val tr.itemW.val (Or.inr hz.2)), hc, hx]
  simp [weightNormSq, normSq, hz.1, hz.2]

/-- C47 (it runs).  With positive regularisation an epoch of a feature-aware trainer with the Cholesky
or the conjugate gradient solver ends normally. -/
theorem C47_epoch_succeeds {ω : Oracle T} (hω : ω.Complete) (hT : 0 < T) (cfg : Config) (X : CSR ℝ)
    (hv : Valid cfg X) (hpu : RegPositive cfg X) (hpi : RegPositive cfg (transpose X))
    (sc : SolverConfig) (hs : sc.solverType ≠ .ialspp) (tr : Trainer K) (hr : tr.Reached cfg X)
    (hf : tr.featureAware = true) : ∃ tr', tr.step ω sc = .ok tr' := by
  obtain ⟨hg, hc, hx⟩ := reached_good hv hr
  have hvt : Valid cfg (transpose X) :=
    ⟨Sim.transpose_proper X hv.proper, transpose_nonNeg hv.nonneg, hv.reg, hv.alpha0⟩
  obtain ⟨tr₁, h1⟩ : ∃ tr₁, tr.stepUser (ω.at 0) sc = .ok tr₁ := by
    have hpos : ∀ r, r < tr.user.n → 0 < computeReg tr.cfg (tr.X.row r).length tr.item.n := by
      intro r hr'
      rw [hg.vn, hx, hc]
      exact regPos_row hv hpu (by rw [hg.un, hx] at hr'; exact hr')
    unfold Trainer.stepUser
    rw [prepareP_eq ((hω.at 0).at 0) hT]
    simp only [bind, Except.bind]
    by_cases hb : tr.featureAware = true ∧ tr.cfg.warmup ≤ tr.epoch ∧ 0 < tr.userW.rows
    · rw [if_pos hb]
      obtain ⟨user, h1⟩ := solverStepPrior_total ((hω.at 0).at 1) hT (cfg := tr.cfg) (hc ▸ hv.alpha0)
        (hc ▸ hv.reg) hs (X := tr.X) (V := tr.item) (prior := featureTimesWeight tr.userF tr.userW)
        (F := tr.user) hg.un
        (by show tr.userF.rows = _; rw [hg.uF hf, hg.un])
        (fun r => nonNeg_row (hx ▸ hv.nonneg) r) hpos
      rw [h1]
      obtain ⟨w, c, h2⟩ := updateFeatureWeight_total ((hω.at 0).at 2) hT tr.cfg (hc ▸ hv.reg)
        (hc ▸ hv.alpha0) tr.userF user tr.userW tr.cfg.lambdaUser
        (hg.ul (by rw [← hg.uW]; omega)) tr.X tr.item.n tr.userCache
      simp only [h2]
      exact ⟨_, rfl⟩
    · rw [if_neg hb]
      obtain ⟨user, h1⟩ := solverStep_total (cfg := tr.cfg) (X := tr.X) (V := tr.item) (hc ▸ hv.alpha0)
        (hc ▸ hv.reg) ((hω.at 0).at 1) hT sc tr.user (fun r _ => nonNeg_row (hx ▸ hv.nonneg) r) hpos
      rw [h1]
      exact ⟨_, rfl⟩
  obtain ⟨g1, c1, x1, e1, f1, _, _, _, _, _⟩ := stepUser_good (hω.at 0) tr tr₁ hg h1 (hx ▸ hv.proper)
    (hx ▸ hv.nonneg) (hc ▸ hv.reg) (hc ▸ hv.alpha0)
  have hx1 := x1.trans hx
  have hc1 := c1.trans hc
  obtain ⟨tr₂, h2⟩ : ∃ tr₂, tr₁.stepItem (ω.at 1) sc = .ok tr₂ := by
    have hpos : ∀ r, r < tr₁.item.n → 0 < computeReg tr₁.cfg (tr₁.Xt.row r).length tr₁.user.n := by
      intro r hr'
      have hcols : (transpose X).cols = X.nrows := rfl
      rw [g1.un, g1.Xt, hx1, hc1, ← hcols]
      exact regPos_row hvt hpi (by
        rw [g1.vn, hx1] at hr'; rw [Sim.transpose_nrows]; exact hr')
    have hnn : ∀ r, NonNegRow (tr₁.Xt.row r) := by
      intro r; rw [g1.Xt, hx1]; exact nonNeg_row hvt.nonneg r
    unfold Trainer.stepItem
    rw [prepareP_eq ((hω.at 1).at 0) hT]
    simp only [bind, Except.bind]
    by_cases hb : tr₁.featureAware = true ∧ tr₁.cfg.warmup ≤ tr₁.epoch ∧ 0 < tr₁.itemW.rows
    · rw [if_pos hb]
      obtain ⟨item, h1⟩ := solverStepPrior_total ((hω.at 1).at 1) hT (cfg := tr₁.cfg) (hc1 ▸ hv.alpha0)
        (hc1 ▸ hv.reg) hs (X := tr₁.Xt) (V := tr₁.user) (prior := featureTimesWeight tr₁.itemF tr₁.itemW)
        (F := tr₁.item) (by rw [g1.vn, g1.Xt, Sim.transpose_nrows])
        (by show tr₁.itemF.rows = _; rw [g1.iF hb.1, g1.vn]) hnn hpos
      rw [h1]
      obtain ⟨w, c, h2⟩ := updateFeatureWeight_total ((hω.at 1).at 2) hT tr₁.cfg (hc1 ▸ hv.reg)
        (hc1 ▸ hv.alpha0) tr₁.itemF item tr₁.itemW tr₁.cfg.lambdaItem
        (g1.il (by rw [← g1.iW]; omega)) tr₁.Xt tr₁.user.n tr₁.itemCache
      simp only [h2]
      exact ⟨_, rfl⟩
    · rw [if_neg hb]
      obtain ⟨item, h1⟩ := solverStep_total (cfg := tr₁.cfg) (X := tr₁.Xt) (V := tr₁.user)
        (hc1 ▸ hv.alpha0) (hc1 ▸ hv.reg) ((hω.at 1).at 1) hT sc tr₁.item (fun r _ => hnn r) hpos
      rw [h1]
      exact ⟨_, rfl⟩
  refine ⟨{ tr₂ with epoch := tr₂.epoch + 1 }, ?_⟩
  unfold Trainer.step
  rw [if_neg (fun h => hs h.2), h1]
  simp only [bind, Except.bind, h2, pure, Except.pure]

/-! ## Cold start with features -/

/-- C47 (prediction from features).  The embedding predicted from features is `features · weights`;
features of the wrong width are rejected. -/
theorem C47_predicted (cfg : Config) (X : CSR ℝ) (hv : Valid cfg X) (tr : Trainer K)
    (hr : tr.Reached cfg X) (hf : tr.featureAware = true) (feat : Features) :
    (feat.cols = tr.userF.cols → ∃ E, tr.transformUserFeature feat = .ok E ∧ E.n = feat.rows ∧
      ∀ u, E.row u = predicted tr.userF.cols feat.val tr.userW.val u) ∧
    (feat.cols ≠ tr.userF.cols → tr.transformUserFeature feat = .error .invalidArgument) ∧
    (feat.cols = tr.itemF.cols → ∃ E, tr.transformItemFeature feat = .ok E ∧ E.n = feat.rows ∧
      ∀ u, E.row u = predicted tr.itemF.cols feat.val tr.itemW.val u) ∧
    (feat.cols ≠ tr.itemF.cols → tr.transformItemFeature feat = .error .invalidArgument) := by
  obtain ⟨hg, hc, hx⟩ := reached_good hv hr
  unfold Trainer.transformUserFeature Trainer.transformItemFeature
  have h1 : ¬ tr.userW.cols ≠ K := fun h => h (hg.uWc hf)
  have h2 : ¬ tr.itemW.cols ≠ K := fun h => h (hg.iWc hf)
  rw [if_neg h1, if_neg h2, hg.uW, hg.iW]
  refine ⟨fun h => ?_, fun h => if_pos h, fun h => ?_, fun h => if_pos h⟩
  · rw [if_neg (fun h' => h' h)]
    refine ⟨_, rfl, rfl, fun u => ?_⟩
    rw [featureTimesWeight_row, h]
  · rw [if_neg (fun h' => h' h)]
    refine ⟨_, rfl, rfl, fun u => ?_⟩
    rw [featureTimesWeight_row, h]

/-- C47 (empty history, users).  With `alpha0 = 0`, a user without interactions gets exactly the
embedding predicted from the features, in every batch. -/
theorem C47_empty_history_user {ω : Oracle T} (hω : ω.Complete) (r : Recommender) (tr : Trainer K)
    (ha : tr.cfg.alpha0 = 0) (hr : 0 ≤ tr.cfg.reg) (X : CSR ℝ) (feat : Features) (E : Factor K)
    (h : r.computeUserEmbedding ω tr X (some feat) = .ok E) (u : Nat) (hu : u < X.nrows)
    (he : X.row u = []) : E.row u = predicted feat.cols feat.val tr.userW.val u := by
  obtain ⟨hT, hx, hn, hw, hf, h1⟩ := transformUserWithFeature_ok hω (userEmbedding_some h)
  rw [scaleX_nrows] at hn
  have he' : (scaleX r.args.scaling r.args.epsilon X).row u = [] := by
    rw [scaleX_row, he]; cases r.args.scaling <;> rfl
  have hu' : u < (featureTimesWeight feat tr.userW).n := by
    show u < feat.rows
    omega
  cases hst : r.solverType with
  | cholesky =>
    have h2 := (solverStepPrior_cholesky (hω.at 1) hT (sc := r.predictionSolver) hst h1).2.2 u hu'
    exact choleskyPriorRow_empty ha hr he' h2
  | cg =>
    have h2 := (solverStepPrior_cg (hω.at 1) hT (sc := r.predictionSolver) hst h1).2.2 u hu'
    rw [he'] at h2
    exact cgRow_empty ha h2
  | ialspp =>
    unfold solverStepPrior at h1
    split at h1
    · cases h1
    · rw [show r.predictionSolver.solverType = .ialspp from hst] at h1
      cases h1

/-- C47 (empty history, items).  The same for an item nobody interacted with. -/
theorem C47_empty_history_item {ω : Oracle T} (hω : ω.Complete) (r : Recommender) (tr : Trainer K)
    (ha : tr.cfg.alpha0 = 0) (hr : 0 ≤ tr.cfg.reg) (X : CSR ℝ) (feat : Features) (E : Factor K)
    (h : r.computeItemEmbedding ω tr X (some feat) = .ok E) (i : Nat) (hi : i < X.cols)
    (he : ∀ u, u < X.nrows → ∀ e ∈ X.row u, e.1 ≠ i) :
    E.row i = predicted feat.cols feat.val tr.itemW.val i := by
  obtain ⟨hT, hx, hn, hw, hf, h1⟩ := transformItemWithFeature_ok hω (itemEmbedding_some h)
  rw [scaleX_cols] at hn
  have he' : (transpose (scaleX r.args.scaling r.args.epsilon X)).row i = [] := by
    by_contra hne
    obtain ⟨e, hmem⟩ := List.exists_mem_of_ne_nil _ hne
    have hi' : i < (scaleX r.args.scaling r.args.epsilon X).cols := by rw [scaleX_cols]; exact hi
    rw [Sim.transpose_row _ hi'] at hmem
    obtain ⟨u, hu, hmem⟩ := List.mem_flatMap.mp hmem
    obtain ⟨e', he', hsome⟩ := List.mem_filterMap.mp hmem
    have hei : e'.1 = i := by
      by_contra hne'
      rw [if_neg hne'] at hsome
      cases hsome
    have hm : e' ∈ _ := he'
    have hu' : u < X.nrows := by
      rw [← scaleX_nrows r.args.scaling r.args.epsilon X]; exact List.mem_range.mp hu
    rw [scaleX_row] at hm
    obtain ⟨e₀, h0, h0e⟩ : ∃ e₀ ∈ X.row u, e₀.1 = e'.1 := by
      cases hsc : r.args.scaling with
      | none => rw [hsc] at hm; exact ⟨e', hm, rfl⟩
      | log =>
        rw [hsc] at hm
        obtain ⟨e₀, h0, rfl⟩ := List.mem_map.mp hm
        exact ⟨e₀, h0, rfl⟩
    exact he u hu' e₀ h0 (h0e.trans hei)
  have hu' : i < (featureTimesWeight feat tr.itemW).n := by
    show i < feat.rows
    omega
  cases hst : r.solverType with
  | cholesky =>
    have h2 := (solverStepPrior_cholesky (hω.at 1) hT (sc := r.predictionSolver) hst h1).2.2 i hu'
    exact choleskyPriorRow_empty ha hr he' h2
  | cg =>
    have h2 := (solverStepPrior_cg (hω.at 1) hT (sc := r.predictionSolver) hst h1).2.2 i hu'
    rw [he'] at h2
    exact cgRow_empty ha h2
  | ialspp =>
    unfold solverStepPrior at h1
    split at h1
    · cases h1
    · rw [show r.predictionSolver.solverType = .ialspp from hst] at h1
      cases h1

/-- C47 (features only).  `compute_user_embedding_from_features` with `alpha0 = 0` returns exactly
`features · weights`. -/
theorem C47_from_features_only {ω : Oracle T} (hω : ω.Complete) (r : Recommender) (tr : Trainer K)
    (ha : tr.cfg.alpha0 = 0) (hr : 0 ≤ tr.cfg.reg) (feat : Features) (E : Factor K)
    (h : r.computeUserEmbeddingFromFeatures ω tr feat = .ok E) (u : Nat) (hu : u < feat.rows) :
    E.row u = predicted feat.cols feat.val tr.userW.val u := by
  refine C47_empty_history_user hω r tr ha hr _ feat E h u ?_ ?_
  · simpa [CSR.nrows, emptyCSR] using hu
  · unfold CSR.row emptyCSR
    simp [List.getD_eq_getElem?_getD, hu]

/-- C47 (when it is defined).  With `alpha0 = 0`, a batch that contains a user without interactions is
accepted by the Cholesky and conjugate gradient solvers if `nu = 0` and `reg > 0`, and rejected for
every `nu > 0`, where that user would have no regularisation at all. -/
theorem C47_empty_history_accepted {ω : Oracle T} (hω : ω.Complete) (hT : 0 < T) (r : Recommender)
    (hs : r.solverType ≠ .ialspp) (tr : Trainer K) (ha : tr.cfg.alpha0 = 0) (X : CSR ℝ)
    (hl : LogDefined r.args.scaling r.args.epsilon X)
    (hnn : ∀ row ∈ (scaleX r.args.scaling r.args.epsilon X).rows, NonNegRow row)
    (feat : Features) (hx : X.cols = tr.item.n) (hn : feat.rows = X.nrows) (hw : tr.userW.cols = K)
    (hf : feat.cols = tr.userW.rows) :
    (tr.cfg.nu = 0 → 0 < tr.cfg.reg → ∃ E, r.computeUserEmbedding ω tr X (some feat) = .ok E) ∧
    (0 < tr.cfg.nu → (∃ u < X.nrows, X.row u = []) →
      r.computeUserEmbedding ω tr X (some feat) = .error .invalidArgument) := by
  have hunf : r.computeUserEmbedding ω tr X (some feat) =
      solverStepPrior (ω.at 1) tr.cfg r.predictionSolver (gramP tr.cfg tr.item)
        (scaleX r.args.scaling r.args.epsilon X) tr.item
        (featureTimesWeight feat tr.userW) (featureTimesWeight feat tr.userW) := by
    rw [userEmbedding_eq hl]
    unfold Trainer.transformUserWithFeature
    simp only
    rw [prepareP_eq (hω.at 0) hT]
    unfold Trainer.transformUserFeature
    rw [if_neg (fun h => h hw), if_neg (fun h => h hf)]
    simp only [bind, Except.bind]
    unfold xToVectorPrior
    rw [if_neg (by rw [scaleX_cols]; exact fun h => h hx),
      if_neg (by rw [scaleX_nrows]; exact fun h => h hn)]
  rw [hunf]
  constructor
  · intro hnu hreg
    exact solverStepPrior_total (hω.at 1) hT ha.ge hreg.le (sc := r.predictionSolver) hs
      (by rw [scaleX_nrows]; exact hn) rfl (fun r => nonNeg_row hnn r)
      (fun r _ => computeReg_pos tr.cfg hreg ha.ge _ _ (Or.inl hnu))
  · rintro hnu ⟨u, hu, he⟩
    unfold solverStepPrior
    rw [if_pos]
    refine ⟨ha, ?_, (scaleX r.args.scaling r.args.epsilon X).row u,
      Sim.row_mem _ (by rw [scaleX_nrows]; exact hu), by
        rw [scaleX_row, he]; cases r.args.scaling <;> rfl⟩
    unfold computeReg
    rw [ha]
    simp [Real.zero_rpow hnu.ne']

/-- C47 (features only, accepted).  With `alpha0 = 0`, `nu = 0` and `reg > 0` the Cholesky and conjugate
gradient solvers turn every feature matrix of the right width into embeddings of as many new users or
items as it has rows. -/
theorem C47_from_features_accepted {ω : Oracle T} (hω : ω.Complete) (hT : 0 < T) (r : Recommender)
    (hs : r.solverType ≠ .ialspp) (tr : Trainer K) (ha : tr.cfg.alpha0 = 0) (hnu : tr.cfg.nu = 0)
    (hreg : 0 < tr.cfg.reg) (feat : Features) :
    (r.args.X.cols = tr.item.n → tr.userW.cols = K → feat.cols = tr.userW.rows →
      ∃ E, r.computeUserEmbeddingFromFeatures ω tr feat = .ok E ∧ E.n = feat.rows ∧
        ∀ u < feat.rows, E.row u = predicted feat.cols feat.val tr.userW.val u) ∧
    (r.args.X.nrows = tr.user.n → tr.itemW.cols = K → feat.cols = tr.itemW.rows →
      ∃ E, r.computeItemEmbeddingFromFeatures ω tr feat = .ok E ∧ E.n = feat.rows ∧
        ∀ i < feat.rows, E.row i = predicted feat.cols feat.val tr.itemW.val i) := by
  have hsize : ∀ {ω : Oracle T} (hω : ω.Complete) {P : Matrix (Fin K) (Fin K) ℝ} {X : CSR ℝ} {V prior F F' : Factor K},
      solverStepPrior ω tr.cfg r.predictionSolver P X V prior F = .ok F' → F'.n = F.n := by
    intro ω hω P X V prior F F' h
    cases hst : r.solverType with
    | cholesky => exact (solverStepPrior_cholesky hω hT (sc := r.predictionSolver) hst h).1
    | cg => exact (solverStepPrior_cg hω hT (sc := r.predictionSolver) hst h).1
    | ialspp => exact absurd hst hs
  constructor
  · intro hx hw hf
    have hnn : ∀ row ∈ (scaleX r.args.scaling r.args.epsilon (emptyCSR feat.rows r.args.X.cols)).rows,
        NonNegRow row := by
      intro row hrow
      have : row = [] := by
        cases hsc : r.args.scaling with
        | none => rw [hsc] at hrow; exact List.eq_of_mem_replicate hrow
        | log =>
          rw [hsc] at hrow
          obtain ⟨x, hx, rfl⟩ := List.mem_map.mp hrow
          rw [List.eq_of_mem_replicate hx]; rfl
      rw [this]
      intro e he
      cases he
    obtain ⟨E, hE⟩ := (C47_empty_history_accepted hω hT r hs tr ha (emptyCSR feat.rows r.args.X.cols)
      (logDefined_empty _ _ _ _) hnn feat hx
      (by simp [CSR.nrows, emptyCSR]) hw hf).1 hnu hreg
    refine ⟨E, hE, ?_, fun u hu => C47_from_features_only hω r tr ha hreg.le feat E hE u hu⟩
    obtain ⟨-, -, -, -, -, h1⟩ := transformUserWithFeature_ok hω (userEmbedding_some hE)
    exact hsize (hω.at 1) h1
  · intro hx hw hf
    have he : ∀ i, (transpose (scaleX r.args.scaling r.args.epsilon
        (emptyCSR r.args.X.nrows feat.rows))).row i = [] := by
      intro i
      by_cases hi : i < (scaleX r.args.scaling r.args.epsilon (emptyCSR r.args.X.nrows feat.rows)).cols
      · rw [transpose, Sim.transpose_row _ hi, List.flatMap_eq_nil_iff]
        intro u hu
        rw [scaleX_row]
        have : (emptyCSR r.args.X.nrows feat.rows).row u = [] := by
          unfold CSR.row emptyCSR
          by_cases hu' : u < r.args.X.nrows <;> simp [List.getD_eq_getElem?_getD, hu']
        rw [this]
        cases r.args.scaling <;> rfl
      · exact Sim.row_nil _ (by rw [transpose, Sim.transpose_nrows]; exact hi)
    have hunf : r.computeItemEmbeddingFromFeatures ω tr feat =
        solverStepPrior (ω.at 1) tr.cfg r.predictionSolver (gramP tr.cfg tr.user)
          (transpose (scaleX r.args.scaling r.args.epsilon (emptyCSR r.args.X.nrows feat.rows))) tr.user
          (featureTimesWeight feat tr.itemW) (featureTimesWeight feat tr.itemW) := by
      unfold Recommender.computeItemEmbeddingFromFeatures
      rw [itemEmbedding_eq (logDefined_empty _ _ _ _)]
      unfold Trainer.transformItemWithFeature
      simp only
      rw [prepareP_eq (hω.at 0) hT]
      unfold Trainer.transformItemFeature
      rw [if_neg (fun h => h hw), if_neg (fun h => h hf)]
      simp only [bind, Except.bind]
      unfold xToVectorPrior
      rw [if_neg (by
          show ¬ (scaleX r.args.scaling r.args.epsilon (emptyCSR r.args.X.nrows feat.rows)).nrows ≠ tr.user.n
          rw [scaleX_nrows]; simpa [CSR.nrows, emptyCSR] using hx),
        if_neg (by rw [transpose, Sim.transpose_nrows, scaleX_cols]; exact fun h => h rfl)]
    obtain ⟨E, hE⟩ := solverStepPrior_total (hω.at 1) hT ha.ge hreg.le (sc := r.predictionSolver) hs
      (X := transpose (scaleX r.args.scaling r.args.epsilon (emptyCSR r.args.X.nrows feat.rows)))
      (V := tr.user) (prior := featureTimesWeight feat tr.itemW) (F := featureTimesWeight feat tr.itemW)
      (by rw [transpose, Sim.transpose_nrows, scaleX_cols]; rfl) rfl
      (fun i => by rw [he i]; intro e he; cases he)
      (fun r _ => computeReg_pos tr.cfg hreg ha.ge _ _ (Or.inl hnu))
    rw [← hunf] at hE
    refine ⟨E, hE, ?_, fun i hi => C47_empty_history_item hω r tr ha hreg.le _ feat E hE i hi ?_⟩
    · rw [hunf] at hE
      exact hsize (hω.at 1) hE
    · intro u hu e hmem
      have hu' : u < r.args.X.nrows := by simpa [CSR.nrows, emptyCSR] using hu
      unfold CSR.row emptyCSR at hmem
      simp [List.getD_eq_getElem?_getD, hu'] at hmem

/-- C47 (additional items).  The scores for new users and additional items described by their features:
first the scores of the known items, then those of the additional items, each the scalar product of the
user's cold-start embedding with the item's embedding; with `alpha0 = 0` the latter is `features · weights`. -/
theorem C47_additional_items {ω : Oracle T} (hω : ω.Complete) (r : Recommender) (tr : Trainer K)
    (X : CSR ℝ) (feat : Features) :
    (r.args.itemF = none → r.getScoreColdUserWithItemFeatures ω tr X feat = .error .notImplemented) ∧
    ∀ n S, r.getScoreColdUserWithItemFeatures ω tr X feat = .ok (n, S) →
      ∃ E, r.computeUserEmbedding (ω.at 1) tr X none = .ok E ∧ n = E.n ∧ ∀ u,
        (∀ i < tr.item.n, S u i = score (E.row u) (tr.item.row i)) ∧
        (∀ I, r.computeItemEmbeddingFromFeatures (ω.at 0) tr feat = .ok I → ∀ j < I.n, j < feat.rows →
          S u (tr.item.n + j) = score (E.row u) (I.row j)) ∧
        (tr.cfg.alpha0 = 0 → 0 ≤ tr.cfg.reg → ∀ j < feat.rows,
          S u (tr.item.n + j) = score (E.row u) (predicted feat.cols feat.val tr.itemW.val j)) := by
  refine ⟨fun h => by unfold Recommender.getScoreColdUserWithItemFeatures; rw [if_pos (by rw [h]; rfl)], ?_⟩
  intro n S h
  unfold Recommender.getScoreColdUserWithItemFeatures at h
  split at h
  · cases h
  obtain ⟨I, hI, h⟩ : ∃ I, (if feat.rows ≠ 0 then r.computeItemEmbeddingFromFeatures (ω.at 0) tr feat
      else .ok ⟨0, fun _ => 0⟩) = .ok I ∧ (do
        let users ← r.computeUserEmbedding (ω.at 1) tr X none
        return (users.n, fun u i => if i < tr.item.n then (embeddingScores users tr.item).2 u i
          else (embeddingScores users I).2 u (i - tr.item.n))) = Except.ok (n, S) := by
    by_cases hz : feat.rows ≠ 0
    · simp only [if_pos hz] at h ⊢
      exact bind_ok h
    · simp only [if_neg hz] at h ⊢
      exact bind_ok h
  obtain ⟨E, hE, h⟩ := bind_ok h
  have h := Except.ok.inj h
  rw [Prod.mk.injEq] at h
  obtain ⟨rfl, rfl⟩ := h
  refine ⟨E, hE, rfl, fun u => ⟨fun i hi => ?_, fun I' hI' j hj hj' => ?_, fun ha hr j hj => ?_⟩⟩
  · simp only [if_pos hi, embeddingScores]; rfl
  · rw [if_pos (by omega), hI'] at hI
    cases hI
    simp only [if_neg (by omega : ¬ tr.item.n + j < tr.item.n), embeddingScores, Nat.add_sub_cancel_left,
      if_pos hj]
    rfl
  · rw [if_pos (by omega)] at hI
    obtain ⟨hT, -, hn, -, -, h1⟩ := transformItemWithFeature_ok (hω.at 0) (itemEmbedding_some hI)
    have hIn : I.n = feat.rows := by
      cases hst : r.solverType with
      | cholesky => exact (solverStepPrior_cholesky ((hω.at 0).at 1) hT (sc := r.predictionSolver) hst h1).1
      | cg => exact (solverStepPrior_cg ((hω.at 0).at 1) hT (sc := r.predictionSolver) hst h1).1
      | ialspp =>
        unfold solverStepPrior at h1
        split at h1
        · cases h1
        · rw [show r.predictionSolver.solverType = .ialspp from hst] at h1
          cases h1
    have := C47_empty_history_item (hω.at 0) r tr ha hr _ feat I hI j (by exact hj) (by
      intro u hu e hmem
      have hu' : u < r.args.X.nrows := by simpa [CSR.nrows, emptyCSR] using hu
      unfold CSR.row emptyCSR at hmem
      simp [List.getD_eq_getElem?_getD, hu'] at hmem)
    rw [← this]
    simp only [if_neg (by omega : ¬ tr.item.n + j < tr.item.n), embeddingScores, Nat.add_sub_cancel_left,
      if_pos (show j < I.n by omega)]
    rfl

/-- C47 (scores from features only).  New users described by their features alone get, for every known
item, the scalar product of their embedding with the item's; new items described by their features alone
get, for every requested known user, the scalar product of the user's embedding with theirs; a user that
does not exist is an `IndexError`.  With `alpha0 = 0` the new embeddings are `features · weights`. -/
theorem C47_scores_from_features {ω : Oracle T} (hω : ω.Complete) (hT : 0 < T) (r : Recommender)
    (hs : r.solverType ≠ .ialspp) (tr : Trainer K) (feat : Features) :
    (∀ E, r.computeUserEmbeddingFromFeatures ω tr feat = .ok E →
      ∃ n S, r.getScoreColdUserFromFeatures ω tr feat = .ok (n, S) ∧ n = E.n ∧
        ∀ u, ∀ i < tr.item.n, S u i = score (E.row u) (tr.item.row i)) ∧
    (∀ I users, r.computeItemEmbeddingFromFeatures ω tr feat = .ok I →
      ((∀ u ∈ users, u < tr.user.n) → ∃ S, r.getScoreFromItemFeatures ω tr users feat = .ok S ∧
        S.length = users.length ∧
        ∀ (j u : Nat), users[j]? = some u → ∀ i < I.n,
          (S[j]?).map (fun row => row i) = some (score (tr.user.row u) (I.row i))) ∧
      ((∃ u ∈ users, tr.user.n ≤ u) → r.getScoreFromItemFeatures ω tr users feat = .error .indexError)) ∧
    (tr.cfg.alpha0 = 0 → tr.cfg.nu = 0 → 0 < tr.cfg.reg →
      (r.args.X.cols = tr.item.n → tr.userW.cols = K → feat.cols = tr.userW.rows →
        ∃ S, r.getScoreColdUserFromFeatures ω tr feat = .ok (feat.rows, S) ∧
          ∀ u < feat.rows, ∀ i < tr.item.n,
            S u i = score (predicted feat.cols feat.val tr.userW.val u) (tr.item.row i)) ∧
      (r.args.X.nrows = tr.user.n → tr.itemW.cols = K → feat.cols = tr.itemW.rows →
        ∀ users, (∀ u ∈ users, u < tr.user.n) → ∃ S, r.getScoreFromItemFeatures ω tr users feat = .ok S ∧
          ∀ (j u : Nat), users[j]? = some u → ∀ i < feat.rows, (S[j]?).map (fun row => row i) =
            some (score (tr.user.row u) (predicted feat.cols feat.val tr.itemW.val i)))) := by
  have hU : ∀ E, r.computeUserEmbeddingFromFeatures ω tr feat = .ok E →
      ∃ n S, r.getScoreColdUserFromFeatures ω tr feat = .ok (n, S) ∧ n = E.n ∧
        ∀ u, ∀ i < tr.item.n, S u i = score (E.row u) (tr.item.row i) := by
    intro E hE
    refine ⟨E.n, (embeddingScores E tr.item).2, ?_, rfl, ?_⟩
    · unfold Recommender.getScoreColdUserFromFeatures
      rw [hE]
      rfl
    · intro u i hi
      simp only [embeddingScores, if_pos hi]
      rfl
  have hI : ∀ I users, r.computeItemEmbeddingFromFeatures ω tr feat = .ok I →
      (∀ u ∈ users, u < tr.user.n) → ∃ S, r.getScoreFromItemFeatures ω tr users feat = .ok S ∧
        S.length = users.length ∧
        ∀ (j u : Nat), users[j]? = some u → ∀ i < I.n,
          (S[j]?).map (fun row => row i) = some (score (tr.user.row u) (I.row i)) := by
    intro I users hI hu
    refine ⟨users.map (fun u => fun i => if i < I.n then ∑ k, tr.user.row u k * I.row i k else 0), ?_,
      by rw [List.length_map], ?_⟩
    · unfold Recommender.getScoreFromItemFeatures
      rw [hI]
      show getScoreFromItemEmbedding tr users I = _
      unfold getScoreFromItemEmbedding
      rw [if_pos (by simpa using hu)]
    · intro j u hj i hi
      rw [List.getElem?_map, hj]
      simp only [Option.map_some, if_pos hi]
      rfl
  refine ⟨hU, fun I users h => ⟨hI I users h, ?_⟩, ?_⟩
  · rintro ⟨u, hu, hn⟩
    unfold Recommender.getScoreFromItemFeatures
    rw [h]
    show getScoreFromItemEmbedding tr users I = _
    unfold getScoreFromItemEmbedding
    rw [if_neg]
    simp only [List.all_eq_true, decide_eq_true_eq, not_forall]
    exact ⟨u, hu, by omega⟩
  · intro ha hnu hreg
    obtain ⟨h1, h2⟩ := C47_from_features_accepted hω hT r hs tr ha hnu hreg feat
    constructor
    · intro hx hw hf
      obtain ⟨E, hE, hn, hrow⟩ := h1 hx hw hf
      obtain ⟨n, S, hS, hn', hv⟩ := hU E hE
      refine ⟨S, by rw [hS, hn', hn], fun u hu i hi => ?_⟩
      rw [hv u i hi, hrow u hu]
    · intro hx hw hf users hu
      obtain ⟨I, hIe, hn, hrow⟩ := h2 hx hw hf
      obtain ⟨S, hS, -, hv⟩ := hI I users hIe hu
      refine ⟨S, hS, fun j u hj i hi => ?_⟩
      rw [hv j u hj i (by omega), hrow i hi]

/-- C47 (history and features).  With the Cholesky solver the embedding of a cold user with features is
the unique minimiser, as a function of that user's embedding, of the loss in which users are pulled
towards the embeddings predicted from their features. -/
theorem C47_cold_user_with_features {ω : Oracle T} (hω : ω.Complete) (r : Recommender)
    (hs : r.solverType = .cholesky) (tr : Trainer K) (X : CSR ℝ)
    (hv : Valid tr.cfg (scaleX r.args.scaling r.args.epsilon X)) (feat : Features) (E : Factor K)
    (h : r.computeUserEmbedding ω tr X (some feat) = .ok E) (u : Nat) (hu : u < X.nrows)
    (A qB : Nat → Fin K → ℝ) (y : Fin K → ℝ) (hy : y ≠ E.row u) :
    priorLoss (paramsOf tr.cfg) (Data.ofCSR (scaleX r.args.scaling r.args.epsilon X))
        (predicted feat.cols feat.val tr.userW.val) qB (Function.update A u (E.row u)) tr.item.row <
      priorLoss (paramsOf tr.cfg) (Data.ofCSR (scaleX r.args.scaling r.args.epsilon X))
        (predicted feat.cols feat.val tr.userW.val) qB (Function.update A u y) tr.item.row := by
  obtain ⟨hT, hx, hn, hw, hf, h1⟩ := transformUserWithFeature_ok hω (userEmbedding_some h)
  have hu' : u < (scaleX r.args.scaling r.args.epsilon X).nrows := by rw [scaleX_nrows]; exact hu
  have h2 := (solverStepPrior_cholesky (hω.at 1) hT (sc := r.predictionSolver) hs h1).2.2 u
    (by show u < feat.rows; omega)
  have hm := choleskyPriorRow_min hv.alpha0 hv.reg _ (nonNeg_row hv.nonneg u) _ h2
  have hlt := rowQ_strict u hm.1 _ _ hm.2 y hy
  rw [priorLoss_eq, priorLoss_eq]
  have : ∑ w ∈ Finset.range (Data.ofCSR (scaleX r.args.scaling r.args.epsilon X)).U,
      rowObj (paramsOf tr.cfg) (Data.ofCSR (scaleX r.args.scaling r.args.epsilon X))
        (predicted feat.cols feat.val tr.userW.val w) tr.item.row w (Function.update A u (E.row u) w) <
      ∑ w ∈ Finset.range (Data.ofCSR (scaleX r.args.scaling r.args.epsilon X)).U,
      rowObj (paramsOf tr.cfg) (Data.ofCSR (scaleX r.args.scaling r.args.epsilon X))
        (predicted feat.cols feat.val tr.userW.val w) tr.item.row w (Function.update A u y w) := by
    apply Finset.sum_lt_sum
    · intro w _
      by_cases hwu : w = u
      · subst hwu
        rw [Function.update_self, Function.update_self, rowObj_ofCSR tr.cfg _ hv.proper tr.item hx.symm,
          rowObj_ofCSR tr.cfg _ hv.proper tr.item hx.symm]
        unfold rowQ at hlt
        exact (add_lt_add_left hlt _).le
      · rw [Function.update_of_ne hwu, Function.update_of_ne hwu]
    · refine ⟨u, Finset.mem_range.mpr hu', ?_⟩
      rw [Function.update_self, Function.update_self, rowObj_ofCSR tr.cfg _ hv.proper tr.item hx.symm,
        rowObj_ofCSR tr.cfg _ hv.proper tr.item hx.symm]
      unfold rowQ at hlt
      exact add_lt_add_left hlt _
  linarith

/-! ## Error branches -/

/-- C47 (rejections).  Feature-aware training rejects the subspace solver, feature matrices with the wrong
number of rows, and non-positive feature regularisation. -/
theorem C47_rejections (cfg : Config) (X : CSR ℝ) (ω : Oracle T) (sc : SolverConfig) (tr : Trainer K)
    (userF itemF : Features) (u₀ v₀ : Nat → Vec K) :
    (tr.featureAware = true → sc.solverType = .ialspp → tr.step ω sc = .error .invalidArgument) ∧
    (userF.rows ≠ X.nrows ∨ itemF.rows ≠ X.cols ∨ (userF.cols ≠ 0 ∧ cfg.lambdaUser ≤ 0) ∨
        (itemF.cols ≠ 0 ∧ cfg.lambdaItem ≤ 0) →
      Trainer.createWithFeatures cfg X userF itemF u₀ v₀ = .error .invalidArgument) := by
  constructor
  · intro h1 h2
    unfold Trainer.step
    rw [if_pos ⟨h1, h2⟩]
  · intro h
    unfold Trainer.createWithFeatures
    by_cases h1 : userF.rows ≠ X.nrows ∨ itemF.rows ≠ X.cols
    · rw [if_pos h1]
    · rw [if_neg h1, if_pos]
      rcases h with h | h | h
      · exact absurd (Or.inl h) h1
      · exact absurd (Or.inr h) h1
      · exact h

/-- C47 (rejections of cold profiles).  Profiles over a different number of items (users), a number of
feature rows that differs from the number of profiles, and features of a different width than in training
raise `invalid_argument`. -/
theorem C47_cold_rejections {ω : Oracle T} (hω : ω.Complete) (r : Recommender) (tr : Trainer K) (X : CSR ℝ)
    (hl : LogDefined r.args.scaling r.args.epsilon X) (feat : Features) :
    (X.cols ≠ tr.item.n ∨ feat.rows ≠ X.nrows ∨ feat.cols ≠ tr.userW.rows →
      r.computeUserEmbedding ω tr X (some feat) = .error .invalidArgument) ∧
    (X.nrows ≠ tr.user.n ∨ feat.rows ≠ X.cols ∨ feat.cols ≠ tr.itemW.rows →
      r.computeItemEmbedding ω tr X (some feat) = .error .invalidArgument) := by
  constructor
  · intro h
    rw [userEmbedding_eq hl]
    unfold Trainer.transformUserWithFeature
    simp only
    rcases Nat.eq_zero_or_pos T with rfl | hT
    · rfl
    rw [prepareP_eq (hω.at 0) hT]
    unfold Trainer.transformUserFeature
    simp only [bind, Except.bind]
    by_cases h1 : tr.userW.cols ≠ K
    · rw [if_pos h1]
    rw [if_neg h1]
    by_cases h2 : feat.cols ≠ tr.userW.rows
    · rw [if_pos h2]
    rw [if_neg h2]
    simp only
    unfold xToVectorPrior
    rw [scaleX_cols, scaleX_nrows]
    by_cases h3 : X.cols ≠ tr.item.n
    · rw [if_pos h3]
    rw [if_neg h3, if_pos]
    show feat.rows ≠ _
    tauto
  · intro h
    rw [itemEmbedding_eq hl]
    unfold Trainer.transformItemWithFeature
    simp only
    rcases Nat.eq_zero_or_pos T with rfl | hT
    · rfl
    rw [prepareP_eq (hω.at 0) hT]
    unfold Trainer.transformItemFeature
    simp only [bind, Except.bind]
    by_cases h1 : tr.itemW.cols ≠ K
    · rw [if_pos h1]
    rw [if_neg h1]
    by_cases h2 : feat.cols ≠ tr.itemW.rows
    · rw [if_pos h2]
    rw [if_neg h2]
    simp only
    unfold xToVectorPrior
    rw [Sim.transpose_nrows, show (transpose (scaleX r.args.scaling r.args.epsilon X)).cols =
      (scaleX r.args.scaling r.args.epsilon X).nrows from rfl, scaleX_cols, scaleX_nrows]
    by_cases h3 : X.nrows ≠ tr.user.n
    · rw [if_pos h3]
    rw [if_neg h3, if_pos]
    show feat.rows ≠ _
    tauto

/-! ## Non-vacuity -/

noncomputable def featureCfg (alpha0 nu : ℝ) : Config :=
  { exampleCfg with alpha0 := alpha0, nu := nu, lambdaUser := 1, lambdaItem := 2, warmup := 0 }

/-- a feature-aware trainer of the example data: two user features, one item feature -/
noncomputable def featureTrainer (alpha0 nu : ℝ) : Trainer 3 where
  cfg := featureCfg alpha0 nu
  user := ⟨exampleX.nrows, fun u k => u + k.val⟩
  item := ⟨exampleX.cols, fun i k => 1 + i * k.val⟩
  userW := ⟨2, 3, fun _ => 0⟩
  itemW := ⟨1, 3, fun _ => 0⟩
  X := exampleX
  Xt := transpose exampleX
  userF := ⟨exampleX.nrows, 2, fun u f => u + f⟩
  itemF := ⟨exampleX.cols, 1, fun i _ => 1 + i⟩
  featureAware := true
  userCache := none
  itemCache := none
  epoch := 0

theorem featureTrainer_reached (alpha0 nu : ℝ) :
    (featureTrainer alpha0 nu).Reached (featureCfg alpha0 nu) exampleX := by
  refine Trainer.Reached.features ⟨exampleX.nrows, 2, fun u f => u + f⟩
    ⟨exampleX.cols, 1, fun i _ => 1 + i⟩ (fun u k => u + k.val) (fun i k => 1 + i * k.val) _ ?_
  unfold Trainer.createWithFeatures
  rw [if_neg (by simp), if_neg (by simp [featureCfg])]
  rfl

/-- The hypotheses are met: with two threads, epochs of the feature-aware example trainer end normally
with the Cholesky and the conjugate gradient solver, features being used from the first epoch. -/
example (sc : SolverConfig) (hs : sc.solverType ≠ .ialspp) : ∃ ω : Oracle 2, ω.Complete ∧
    Valid (featureCfg (1 / 2) 1) exampleX ∧ (featureCfg (1 / 2) 1).warmup ≤ (featureTrainer (1 / 2) 1).epoch ∧
    0 < (featureTrainer (1 / 2) 1).userF.cols ∧ 0 < (featureTrainer (1 / 2) 1).itemF.cols ∧
    ∃ tr', (featureTrainer (1 / 2) 1).step ω sc = .ok tr' := by
  obtain ⟨ω, hω⟩ := exists_complete_oracle 2 (by norm_num)
  have hv : Valid (featureCfg (1 / 2) 1) exampleX :=
    ⟨exampleValid.proper, exampleValid.nonneg, exampleValid.reg, by norm_num [featureCfg]⟩
  refine ⟨ω, hω, hv, le_refl _, by decide, by decide, ?_⟩
  refine C47_epoch_succeeds hω (by norm_num) _ _ hv ?_ ?_ sc hs _ (featureTrainer_reached _ _) rfl
  · refine ⟨by norm_num [featureCfg, exampleCfg], fun row _ => Or.inr ?_⟩
    have : (0 : ℝ) ≤ row.length := Nat.cast_nonneg _
    norm_num [featureCfg, exampleX]
    linarith
  · refine ⟨by norm_num [featureCfg, exampleCfg], fun row _ => Or.inr ?_⟩
    have h : (transpose exampleX).cols = 2 := rfl
    have : (0 : ℝ) ≤ row.length := Nat.cast_nonneg _
    rw [h]
    norm_num [featureCfg]
    linarith

/-- With `alpha0 = 0` and `nu = 0` a batch with one empty history is embedded. -/
example : ∃ (ω : Oracle 2) (E : Factor 3), ω.Complete ∧
    (⟨exampleArgs "cg", .cg, 1⟩ : Recommender).computeUserEmbedding ω (featureTrainer 0 0)
      ⟨2, [[(0, 1)], []]⟩ (some ⟨2, 2, fun u f => u + f⟩) = .ok E := by
  obtain ⟨ω, hω⟩ := exists_complete_oracle 2 (by norm_num)
  obtain ⟨E, hE⟩ := (C47_empty_history_accepted hω (by norm_num) ⟨exampleArgs "cg", .cg, 1⟩ (by simp)
    (featureTrainer 0 0) rfl ⟨2, [[(0, 1)], []]⟩
    (logDefined_of_nonneg _ (by norm_num [exampleArgs]) (by
      intro row hrow e he
      simp only [List.mem_cons, List.not_mem_nil, or_false] at hrow
      rcases hrow with rfl | rfl
      · simp only [List.mem_cons, List.not_mem_nil, or_false] at he
        subst he; norm_num
      · simp at he))
    (scaleX_nonneg _ _ (by norm_num [exampleArgs]) _ (by
      intro row hrow e he
      simp only [List.mem_cons, List.not_mem_nil, or_false] at hrow
      rcases hrow with rfl | rfl
      · simp only [List.mem_cons, List.not_mem_nil, or_false] at he
        subst he; norm_num
      · simp at he)) ⟨2, 2, fun u f => u + f⟩ rfl rfl rfl rfl).1 rfl
    (by norm_num [featureTrainer, featureCfg, exampleCfg])
  exact ⟨ω, E, hω, hE⟩

/-- and three additional items are embedded from their features. -/
example : ∃ (ω : Oracle 2) (E : Factor 3), ω.Complete ∧ E.n = 3 ∧
    (⟨exampleArgs "cg", .cg, 1⟩ : Recommender).computeItemEmbeddingFromFeatures ω (featureTrainer 0 0)
      ⟨3, (featureTrainer 0 0).itemW.rows, fun u f => u + f⟩ = .ok E := by
  obtain ⟨ω, hω⟩ := exists_complete_oracle 2 (by norm_num)
  obtain ⟨E, hE, hn, -⟩ := (C47_from_features_accepted hω (by norm_num) ⟨exampleArgs "cg", .cg, 1⟩ (by simp)
    (featureTrainer 0 0) rfl rfl (by norm_num [featureTrainer, featureCfg, exampleCfg])
    ⟨3, (featureTrainer 0 0).itemW.rows, fun u f => u + f⟩).2 rfl rfl rfl
  exact ⟨ω, E, hω, hn, hE⟩

end Irspack.Ials
