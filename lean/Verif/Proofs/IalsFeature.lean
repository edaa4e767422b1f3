import Verif.Proofs.IalsCold
import Verif.Proofs.IalsSystem

/-! # Feature-aware iALS: optimality of the two updates, cold start from features -/

namespace Irspack.Ials

open Matrix Spec.Ials

variable {K T : Nat}

/-- the stored cache is what a fresh computation gives -/
theorem featureCache_ok {cfg : Config} {feat : Features} {lam : ℝ} {X : CSR ℝ} {other : Nat}
    {cache : Option (Cache feat.cols)} (hcache : CacheOk cfg feat lam X other cache)
    {c : Cache feat.cols} (hc : featureCache cfg feat lam X other cache = .ok c) :
    c = initCache cfg feat lam X other ∧ PosDef (upperSymm c.gram.transpose) := by
  cases cache with
  | some c₀ =>
    simp only [featureCache, Except.ok.injEq] at hc
    subst hc
    exact hcache c₀ rfl
  | none =>
    simp only [featureCache] at hc
    split at hc
    · rename_i hpd
      simp only [Except.ok.injEq] at hc
      subst hc
      exact ⟨rfl, hpd⟩
    · cases hc

/-- the new weights are the only minimiser of the part of the loss they occur in -/
theorem updateFeatureWeight_strict {ω : Oracle T} (hω : ω.Complete) (cfg : Config) (hr : 0 ≤ cfg.reg)
    (ha : 0 ≤ cfg.alpha0) (feat : Features) (hne : feat.cols ≠ 0) (F : Factor K) (W W' : Weight K)
    (lam : ℝ) (X : CSR ℝ) (other : Nat) (cache cache' : Option (Cache feat.cols))
    (hcache : CacheOk cfg feat lam X other cache)
    (h : updateFeatureWeight ω cfg feat F W lam X other cache = .ok (W', cache'))
    (W'' : Nat → Vec K) (f : Nat) (hf : f < feat.cols) (hd : W'' f ≠ W'.val f) :
    sideLoss feat.rows feat.cols (fun r => computeReg cfg (X.row r).length other) feat.val lam
        F.row W'.val <
      sideLoss feat.rows feat.cols (fun r => computeReg cfg (X.row r).length other) feat.val lam
        F.row W'' := by
  classical
  unfold updateFeatureWeight at h
  rw [if_neg hne] at h
  obtain ⟨c, hc, h2⟩ := bind_ok h
  obtain ⟨W₁, hW, h3⟩ := bind_ok h2
  cases h3
  have hcok := featureCache_ok hcache hc
  obtain ⟨h4, h5, h6⟩ := solveFeatureWeight_col hω feat F W W' c hW
  obtain ⟨k₀, hk₀⟩ : ∃ k, W'' f k ≠ W'.val f k := by
    by_contra hcon
    push Not at hcon
    exact hd (funext hcon)
  have hpd := hcok.2
  have hg := gram_eq cfg feat lam X other hr ha
  rw [hcok.1, hg] at hpd
  have key : ∀ k : Fin K, (sysMat 0 (ridgeEnts feat fun r => computeReg cfg (X.row r).length other)
      lam).mulVec (fun f => W'.val f.val k) = fun f => ∑ r ∈ Finset.range feat.rows,
        feat.val r f.val * (F.row r k * computeReg cfg (X.row r).length other) := by
    intro k
    have h7 := h6 k
    rw [hcok.1] at h7
    unfold Cache.solve at h7
    rw [hg] at h7
    have hsol := hpd.solve (fun f => ∑ r ∈ Finset.range feat.rows,
      feat.val r f.val * (F.row r k * (initCache cfg feat lam X other).rowWeights r))
    rw [← h7] at hsol
    exact hsol
  rw [sideLoss_eq, sideLoss_eq]
  apply Finset.sum_lt_sum
  · intro k _
    have hmin := quad_min (sysMat_symm 0 (fun _ _ => rfl) _ _) (fun x => by
      by_cases hx : x = 0
      · rw [hx]; simp
      · exact (hpd x hx).le) (key k) (fun f => W'' f.val k)
    linarith
  · refine ⟨k₀, Finset.mem_univ _, ?_⟩
    have := quad_add (sysMat_symm 0 (fun _ _ => rfl)
      (ridgeEnts feat fun r => computeReg cfg (X.row r).length other) lam)
      (fun f => ∑ r ∈ Finset.range feat.rows,
        feat.val r f.val * (F.row r k₀ * computeReg cfg (X.row r).length other))
      (fun f => W'.val f.val k₀) ((fun f => W'' f.val k₀) - fun f => W'.val f.val k₀)
    rw [add_sub_cancel, key k₀, sub_self, dotProduct_zero] at this
    have hpos := hpd ((fun f : Fin feat.cols => W'' f.val k₀) - fun f => W'.val f.val k₀) (by
      intro h0
      exact hk₀ (sub_eq_zero.mp (congrFun h0 ⟨f, hf⟩)))
    linarith

section step
variable {ω : Oracle T} {sc : SolverConfig}

/-- the user half of a step in which features are used -/
theorem stepUser_feature (hω : ω.Complete) (tr tr' : Trainer K)
    (hc : tr.featureAware = true ∧ tr.cfg.warmup ≤ tr.epoch ∧ 0 < tr.userW.rows)
    (h : tr.stepUser ω sc = .ok tr') :
    0 < T ∧ ∃ user w c,
      solverStepPrior (ω.at 1) tr.cfg sc (gramP tr.cfg tr.item) tr.X tr.item
        (featureTimesWeight tr.userF tr.userW) tr.user = .ok user ∧
      updateFeatureWeight (ω.at 2) tr.cfg tr.userF user tr.userW tr.cfg.lambdaUser tr.X
        tr.item.n tr.userCache = .ok (w, c) ∧
      tr' = { tr with user := user, userW := w, userCache := c } := by
  unfold Trainer.stepUser at h
  obtain ⟨P, hP, h⟩ := bind_ok h
  have hT := pos_of_prepare hP
  rw [prepareP_eq (hω.at 0) hT] at hP
  cases hP
  rw [if_pos hc] at h
  obtain ⟨user, h1, h⟩ := bind_ok h
  obtain ⟨⟨w, c⟩, h2, h⟩ := bind_ok h
  cases h
  exact ⟨hT, user, w, c, h1, h2, rfl⟩

/-- the item half of a step in which features are used -/
theorem stepItem_feature (hω : ω.Complete) (tr tr' : Trainer K)
    (hc : tr.featureAware = true ∧ tr.cfg.warmup ≤ tr.epoch ∧ 0 < tr.itemW.rows)
    (h : tr.stepItem ω sc = .ok tr') :
    0 < T ∧ ∃ item w c,
      solverStepPrior (ω.at 1) tr.cfg sc (gramP tr.cfg tr.user) tr.Xt tr.user
        (featureTimesWeight tr.itemF tr.itemW) tr.item = .ok item ∧
      updateFeatureWeight (ω.at 2) tr.cfg tr.itemF item tr.itemW tr.cfg.lambdaItem tr.Xt
        tr.user.n tr.itemCache = .ok (w, c) ∧
      tr' = { tr with item := item, itemW := w, itemCache := c } := by
  unfold Trainer.stepItem at h
  obtain ⟨P, hP, h⟩ := bind_ok h
  have hT := pos_of_prepare hP
  rw [prepareP_eq (hω.at 0) hT] at hP
  cases hP
  rw [if_pos hc] at h
  obtain ⟨item, h1, h⟩ := bind_ok h
  obtain ⟨⟨w, c⟩, h2, h⟩ := bind_ok h
  cases h
  exact ⟨hT, item, w, c, h1, h2, rfl⟩

end step

/-- Cholesky with a prior: the rows -/
theorem solverStepPrior_cholesky {ω : Oracle T} (hω : ω.Complete) (hT : 0 < T) {cfg : Config}
    {sc : SolverConfig} (hs : sc.solverType = .cholesky) {P : Matrix (Fin K) (Fin K) ℝ} {X : CSR ℝ}
    {V prior F F' : Factor K} (h : solverStepPrior ω cfg sc P X V prior F = .ok F') :
    F'.n = F.n ∧ prior.n = F.n ∧
      ∀ r, r < F.n → choleskyPriorRow cfg P V (prior.row r) (X.row r) = .ok (F'.row r) := by
  unfold solverStepPrior at h
  split at h
  · cases h
  · rw [hs] at h
    exact stepCholeskyPrior_row hω hT _ _ _ _ h

/-- conjugate gradient with a prior: the rows -/
theorem solverStepPrior_cg {ω : Oracle T} (hω : ω.Complete) (hT : 0 < T) {cfg : Config}
    {sc : SolverConfig} (hs : sc.solverType = .cg) {P : Matrix (Fin K) (Fin K) ℝ} {X : CSR ℝ}
    {V prior F F' : Factor K} (h : solverStepPrior ω cfg sc P X V prior F = .ok F') :
    F'.n = F.n ∧ prior.n = F.n ∧
      ∀ r, r < F.n → cgRow cfg sc P V (some (prior.row r)) (X.row r) (F.row r) = .ok (F'.row r) := by
  unfold solverStepPrior at h
  split at h
  · cases h
  · rw [hs] at h
    simp only [stepCg] at h
    split at h
    · cases h
    · rename_i hn
      obtain ⟨m, hm, rfl⟩ := map_ok h
      have hres := parRows_ok hω hT Nat.one_pos hm
      refine ⟨rfl, ?_, fun r hr' => hres.1 r hr'⟩
      simpa using hn

/-- with `alpha0 = 0`, a row without entries: the prior solves the system -/
theorem choleskyPriorRow_empty {cfg : Config} (ha : cfg.alpha0 = 0) (hr : 0 ≤ cfg.reg) {V : Factor K}
    {q y : Vec K} {X : CSR ℝ} {r : Nat} (he : X.row r = [])
    (h : choleskyPriorRow cfg (gramP cfg V) V q (X.row r) = .ok y) : y = q := by
  have hX : NonNegRow (X.row r) := by rw [he]; intro e h'; simp at h'
  obtain ⟨hpd, hy⟩ := choleskyPriorRow_min ha.ge hr q hX y h
  rw [hpd.unique hy]
  refine (hpd.unique ?_).symm
  unfold rowMat
  rw [gramP_zero ha, he]
  funext i
  simp [sysMat, sysRhs, ents, Matrix.mulVec, dotProduct]

theorem cgRow_empty {cfg : Config} (ha : cfg.alpha0 = 0) {V : Factor K} {sc : SolverConfig}
    {q y : Vec K} (h : cgRow cfg sc (gramP cfg V) V (some q) [] q = .ok y) : y = q := by
  unfold cgRow at h
  rw [gramP_zero ha] at h
  simp only [Option.isNone_some, Bool.false_eq_true, false_and, if_false, List.foldl_nil,
    Matrix.zero_mulVec, sub_zero, sub_self] at h
  cases hm : cgMaxIter K sc with
  | zero =>
    rw [hm] at h
    exact (Except.ok.inj h).symm
  | succ n =>
    rw [hm] at h
    unfold cgLoop at h
    simp only [dotProduct_zero] at h
    rw [if_pos (by unfold cgEps; positivity)] at h
    exact (Except.ok.inj h).symm

/-- the calls made by `transform_user_with_feature` -/
theorem transformUserWithFeature_ok {ω : Oracle T} (hω : ω.Complete) {sc : SolverConfig} {tr : Trainer K}
    {X : CSR ℝ} {feat : Features} {E : Factor K}
    (h : tr.transformUserWithFeature ω sc X feat = .ok E) :
    0 < T ∧ X.cols = tr.item.n ∧ feat.rows = X.nrows ∧ tr.userW.cols = K ∧ feat.cols = tr.userW.rows ∧
      solverStepPrior (ω.at 1) tr.cfg sc (gramP tr.cfg tr.item) X tr.item
        (featureTimesWeight feat tr.userW) (featureTimesWeight feat tr.userW) = .ok E := by
  unfold Trainer.transformUserWithFeature at h
  obtain ⟨P, hP, h⟩ := bind_ok h
  have hT := pos_of_prepare hP
  rw [prepareP_eq (hω.at 0) hT] at hP
  cases hP
  obtain ⟨prior, h1, h⟩ := bind_ok h
  unfold Trainer.transformUserFeature at h1
  split at h1
  · cases h1
  · rename_i hw
    split at h1
    · cases h1
    · rename_i hf
      cases h1
      unfold xToVectorPrior at h
      split at h
      · cases h
      · rename_i hx
        split at h
        · cases h
        · rename_i hn
          push Not at hw hf hx hn
          exact ⟨hT, hx, hn, hw, hf, h⟩

/-- the calls made by `transform_item_with_feature` -/
theorem transformItemWithFeature_ok {ω : Oracle T} (hω : ω.Complete) {sc : SolverConfig} {tr : Trainer K}
    {X : CSR ℝ} {feat : Features} {E : Factor K}
    (h : tr.transformItemWithFeature ω sc X feat = .ok E) :
    0 < T ∧ X.nrows = tr.user.n ∧ feat.rows = X.cols ∧ tr.itemW.cols = K ∧ feat.cols = tr.itemW.rows ∧
      solverStepPrior (ω.at 1) tr.cfg sc (gramP tr.cfg tr.user) (transpose X) tr.user
        (featureTimesWeight feat tr.itemW) (featureTimesWeight feat tr.itemW) = .ok E := by
  unfold Trainer.transformItemWithFeature at h
  obtain ⟨P, hP, h⟩ := bind_ok h
  have hT := pos_of_prepare hP
  rw [prepareP_eq (hω.at 0) hT] at hP
  cases hP
  obtain ⟨prior, h1, h⟩ := bind_ok h
  unfold Trainer.transformItemFeature at h1
  split at h1
  · cases h1
  · rename_i hw
    split at h1
    · cases h1
    · rename_i hf
      cases h1
      unfold xToVectorPrior at h
      split at h
      · cases h
      · rename_i hx
        split at h
        · cases h
        · rename_i hn
          push Not at hw hf hx hn
          rw [Sim.transpose_nrows] at hn
          exact ⟨hT, hx, hn, hw, hf, h⟩

/-- with positive regularisation the solvers with a prior succeed -/
theorem solverStepPrior_total {ω : Oracle T} (hω : ω.Complete) (hT : 0 < T) {cfg : Config}
    (ha : 0 ≤ cfg.alpha0) (hr : 0 ≤ cfg.reg) {sc : SolverConfig} (hs : sc.solverType ≠ .ialspp)
    {X : CSR ℝ} {V prior F : Factor K} (hn : F.n = X.nrows) (hq : prior.n = F.n)
    (hX : ∀ r, NonNegRow (X.row r))
    (hp : ∀ r, r < F.n → 0 < computeReg cfg (X.row r).length V.n) :
    ∃ F', solverStepPrior ω cfg sc (gramP cfg V) X V prior F = .ok F' := by
  unfold solverStepPrior
  rw [if_neg (by
    rintro ⟨_, h2, row, hrow, rfl⟩
    obtain ⟨r, hr', he⟩ := List.mem_iff_getElem.mp hrow
    have hrow' : X.row r = [] := by
      unfold CSR.row
      rw [List.getD_eq_getElem?_getD, List.getElem?_eq_getElem hr', Option.getD_some, he]
    have := hp r (by rw [hn]; exact hr')
    rw [hrow'] at this
    exact h2 this)]
  cases hst : sc.solverType with
  | cg =>
    exact solverStep_cg_total ha hr hω hT sc (some prior) F (fun r _ => hX r) hp (by
      intro q hq'; cases hq'; exact hq)
  | cholesky =>
    simp only [stepCholeskyPrior]
    rw [if_neg (by rw [hq]; exact fun h => h rfl)]
    have : ∃ g : Nat → Vec K, ∀ r, r < F.n →
        choleskyPriorRow cfg (gramP cfg V) V (prior.row r) (X.row r) = .ok (g r) := by
      refine ⟨fun r => if h : r < F.n then
        (choleskyPriorRow_total ha hr (prior.row r) (hX r) (hp r h)).choose else 0, fun r h => ?_⟩
      simp only [h, dite_true]
      exact (choleskyPriorRow_total ha hr (prior.row r) (hX r) (hp r h)).choose_spec
    obtain ⟨g, hg⟩ := this
    rw [parRows_total (f := fun r _ => choleskyPriorRow cfg (gramP cfg V) V (prior.row r) (X.row r))
      (m := F.row) hω hT Nat.one_pos g hg]
    exact ⟨_, rfl⟩
  | ialspp => exact absurd hst hs

end Irspack.Ials
