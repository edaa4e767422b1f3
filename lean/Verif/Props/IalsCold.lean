import Verif.Props.IalsStep
import Verif.Proofs.IalsCold

/-!
# C45 (cold-start embeddings) and C46 (block scores)
-/

namespace Irspack.Ials

open Spec.Ials Matrix

variable {K T T' : Nat}

theorem validScaled {cfg : Config} (hr : 0 ≤ cfg.reg) (ha : 0 ≤ cfg.alpha0) {s : Scaling} {eps : ℝ}
    (heps : 0 < eps) {X : CSR ℝ} (hX : Spec.Sim.Proper X)
    (hn : ∀ row ∈ X.rows, ∀ e ∈ row, (0 : ℝ) ≤ e.2) : Valid cfg (scaleX s eps X) :=
  ⟨scaleX_proper s eps X hX, scaleX_nonneg s eps heps X hn, hr, ha⟩

/-! ## C45 -/

/-- C45 (optimality).  With the Cholesky solver the embedding of a cold user is the unique minimiser of
the documented loss as a function of that user's embedding, for the current item embeddings and the
(scaled) profile, whatever the other profiles and embeddings in the batch. -/
theorem C45_cold_user_minimises {ω : Oracle T} (hω : ω.Complete) (r : Recommender)
    (hs : r.solverType = .cholesky) (tr : Trainer K) (X : CSR ℝ)
    (hv : Valid tr.cfg (scaleX r.args.scaling r.args.epsilon X)) (E : Factor K)
    (h : r.computeUserEmbedding ω tr X none = .ok E) :
    E.n = X.nrows ∧ X.cols = tr.item.n ∧
    ∀ u, u < X.nrows → ∀ (A : Nat → Fin K → ℝ) (y : Fin K → ℝ), y ≠ E.row u →
      loss (paramsOf tr.cfg) (Data.ofCSR (scaleX r.args.scaling r.args.epsilon X))
          (Function.update A u (E.row u)) tr.item.row <
        loss (paramsOf tr.cfg) (Data.ofCSR (scaleX r.args.scaling r.args.epsilon X))
          (Function.update A u y) tr.item.row := by
  obtain ⟨hT, hc, h1⟩ := transformUser_ok hω (userEmbedding_none h)
  unfold solverStep at h1
  rw [show r.predictionSolver.solverType = .cholesky from hs] at h1
  obtain ⟨hn, hrow⟩ := stepCholesky_row (hω.at 1) hT _ _ _ h1
  refine ⟨by rw [hn, ← scaleX_nrows r.args.scaling r.args.epsilon X],
    by rw [← hc, scaleX_cols], fun u hu A y hy => ?_⟩
  rw [← scaleX_nrows r.args.scaling r.args.epsilon X] at hu
  have hm := choleskyRow_min hv.alpha0 hv.reg (nonNeg_row hv.nonneg u) _ (hrow u hu)
  have := (loss_lt_of_rows tr.cfg _ hv.proper tr.item (Function.update A u y)
    (Function.update A u (E.row u)) hc.symm (by
      intro w _
      by_cases hw : w = u
      · subst hw
        right
        rw [Function.update_self, Function.update_self]
        exact rowQ_strict w hm.1 0 _ (by rw [smul_zero]; exact hm.2) _ hy
      · left
        rw [Function.update_of_ne hw, Function.update_of_ne hw])).2
  exact this ⟨u, hu, by rw [Function.update_self, Function.update_self]; exact hy.symm⟩

/-- C45 (conjugate gradient).  With the conjugate gradient solver and `prediction_time_max_cg_steps` 0
or at least `n_components`, the embedding of a cold user satisfies the optimality system up to a
residual of norm `1e-10`. -/
theorem C45_cold_user_cg {ω : Oracle T} (hω : ω.Complete) (r : Recommender)
    (hs : r.solverType = .cg) (hm : r.args.predictionMaxCgSteps = 0 ∨ K ≤ r.args.predictionMaxCgSteps)
    (tr : Trainer K) (X : CSR ℝ) (hv : Valid tr.cfg (scaleX r.args.scaling r.args.epsilon X))
    (E : Factor K) (h : r.computeUserEmbedding ω tr X none = .ok E) (u : Nat) (hu : u < X.nrows) :
    normSq (systemRhs (paramsOf tr.cfg) (Data.ofCSR (scaleX r.args.scaling r.args.epsilon X)) tr.item.row u -
      systemAt (paramsOf tr.cfg) (Data.ofCSR (scaleX r.args.scaling r.args.epsilon X)) tr.item.row u
        (E.row u)) ≤ 1 / 10 ^ 20 := by
  obtain ⟨hT, hc, h1⟩ := transformUser_ok hω (userEmbedding_none h)
  unfold solverStep at h1
  rw [show r.predictionSolver.solverType = .cg from hs] at h1
  rw [← scaleX_nrows r.args.scaling r.args.epsilon X] at hu
  rw [system_residual tr.cfg _ hv.proper tr.item hc.symm]
  exact cgRow_residual hv.alpha0 hv.reg _ (by
    unfold cgMaxIter Recommender.predictionSolver
    simp only
    split <;> omega) _ _ ((stepCg_row (hω.at 1) hT h1).2 u hu)

/-- C45 (independence of the batch).  The embedding computed for a profile depends on that profile only:
it is the same in every batch, at every position, with every number of threads and every schedule, for
every solver. -/
theorem C45_own_row_only {ω : Oracle T} {ω' : Oracle T'} (hω : ω.Complete) (hω' : ω'.Complete)
    (r : Recommender) (tr : Trainer K) (X X' : CSR ℝ) (E E' : Factor K)
    (h : r.computeUserEmbedding ω tr X none = .ok E)
    (h' : r.computeUserEmbedding ω' tr X' none = .ok E') (u u' : Nat) (hu : u < X.nrows)
    (hu' : u' < X'.nrows) (hrow : X.row u = X'.row u') : E.row u = E'.row u' := by
  obtain ⟨hT, hc, h1⟩ := transformUser_ok hω (userEmbedding_none h)
  obtain ⟨hT', hc', h1'⟩ := transformUser_ok hω' (userEmbedding_none h')
  exact solverStep_local hT hT' (by rw [scaleX_row, scaleX_row, hrow]) (hω.at 1) (hω'.at 1)
    r.predictionSolver _ _ E E' (by simpa [scaleX_nrows] using hu) (by simpa [scaleX_nrows] using hu')
    rfl h1 h1'

/-- C45 (empty profile).  An empty profile gets the zero embedding, with every solver. -/
theorem C45_empty_profile_zero {ω : Oracle T} (hω : ω.Complete) (r : Recommender) (tr : Trainer K)
    (X : CSR ℝ) (hv : Valid tr.cfg (scaleX r.args.scaling r.args.epsilon X)) (E : Factor K)
    (h : r.computeUserEmbedding ω tr X none = .ok E) (u : Nat) (hu : u < X.nrows)
    (he : X.row u = []) : E.row u = fun _ => 0 := by
  obtain ⟨hT, hc, h1⟩ := transformUser_ok hω (userEmbedding_none h)
  exact solverStep_empty (hω.at 1) hT hv.alpha0 hv.reg (fun w _ => nonNeg_row hv.nonneg w)
    (by simpa [scaleX_nrows] using hu)
    (by rw [scaleX_row, he]; cases r.args.scaling <;> rfl) rfl h1

/-- C45 (consistency with training).  For the Cholesky solver the cold embedding of a profile equal to
the row of training user `u` is the embedding that a training half-epoch assigns to `u`. -/
theorem C45_matches_training {ω : Oracle T} {ω' : Oracle T'} (hω : ω.Complete) (hω' : ω'.Complete)
    (r : Recommender) (hs : r.solverType = .cholesky)
    (hv : Valid r.config (scaleX r.args.scaling r.args.epsilon r.args.X)) (tr tr' : Trainer K)
    (hr : tr.Reached r.config (scaleX r.args.scaling r.args.epsilon r.args.X))
    (hf : tr.featureAware = false) (h : tr.stepUser ω r.trainSolver = .ok tr') (X : CSR ℝ)
    (E : Factor K) (hE : r.computeUserEmbedding ω' tr X none = .ok E) (u u' : Nat)
    (hu : u < r.args.X.nrows) (hu' : u' < X.nrows) (hrow : X.row u' = r.args.X.row u) :
    E.row u' = tr'.user.row u := by
  obtain ⟨hg, hc, hx⟩ := reached_good hv hr
  obtain ⟨hT, user, h1, rfl⟩ := stepUser_plain hω _ tr tr' hf h
  obtain ⟨hT', hc', h1'⟩ := transformUser_ok hω' (userEmbedding_none hE)
  unfold solverStep at h1 h1'
  rw [show r.trainSolver.solverType = .cholesky from hs] at h1
  rw [show r.predictionSolver.solverType = .cholesky from hs] at h1'
  rw [hx] at h1
  exact stepCholesky_local (hω'.at 1) (hω.at 1) hT' hT (by simpa [scaleX_nrows] using hu')
    (by rw [hg.un, hx, scaleX_nrows]; exact hu) (by rw [scaleX_row, scaleX_row, hrow]) h1' h1

/-- C45 (scores).  The cold-user scores are the inner products of the cold embedding with the item
embeddings. -/
theorem C45_cold_scores {ω : Oracle T} (r : Recommender) (tr : Trainer K) (X : CSR ℝ) (E : Factor K)
    (h : r.computeUserEmbedding ω tr X none = .ok E) :
    ∃ m, r.getScoreColdUser ω tr X none = .ok (E.n, m) ∧
      ∀ u i, i < tr.item.n → m u i = score (E.row u) (tr.item.row i) := by
  refine ⟨_, by unfold Recommender.getScoreColdUser; rw [h]; rfl, fun u i hi => ?_⟩
  simp only [if_pos hi]
  rfl

/-- C45 (it succeeds).  If every profile has positive regularisation, the embeddings are computed. -/
theorem C45_cold_user_succeeds {ω : Oracle T} (hω : ω.Complete) (hT : 0 < T) (r : Recommender)
    (tr : Trainer K) (X : CSR ℝ) (hl : LogDefined r.args.scaling r.args.epsilon X)
    (hv : Valid tr.cfg (scaleX r.args.scaling r.args.epsilon X))
    (hp : RegPositive tr.cfg (scaleX r.args.scaling r.args.epsilon X)) (hc : X.cols = tr.item.n) :
    ∃ E, r.computeUserEmbedding ω tr X none = .ok E := by
  rw [userEmbedding_eq hl]
  unfold Trainer.transformUser xToVector
  simp only
  rw [prepareP_eq (hω.at 0) hT]
  simp only [bind, Except.bind]
  rw [if_neg (by rw [scaleX_cols]; exact not_not.mpr hc)]
  apply solverStep_total hv.alpha0 hv.reg (hω.at 1) hT r.predictionSolver
  · exact fun w _ => nonNeg_row hv.nonneg w
  · intro w hw
    have h1 := regPos_row hv hp (r := w) hw
    rwa [scaleX_cols, hc] at h1

/-- C45 (error branch).  Profiles over a different number of items are rejected. -/
theorem C45_wrong_width {ω : Oracle T} (hω : ω.Complete) (r : Recommender) (tr : Trainer K) (X : CSR ℝ)
    (hl : LogDefined r.args.scaling r.args.epsilon X) (hc : X.cols ≠ tr.item.n) :
    r.computeUserEmbedding ω tr X none = .error .invalidArgument := by
  rw [userEmbedding_eq hl]
  unfold Trainer.transformUser xToVector
  simp only
  rcases Nat.eq_zero_or_pos T with rfl | hT
  · rfl
  · rw [prepareP_eq (hω.at 0) hT]
    simp only [bind, Except.bind]
    rw [if_pos (by rw [scaleX_cols]; exact hc)]

/-- C45 (items).  The same for cold items: with the Cholesky solver the embedding computed from a column
of interactions with the known users is the unique minimiser of the loss as a function of that item's
embedding. -/
theorem C45_cold_item_minimises {ω : Oracle T} (hω : ω.Complete) (r : Recommender)
    (hs : r.solverType = .cholesky) (tr : Trainer K) (X : CSR ℝ)
    (hv : Valid tr.cfg (scaleX r.args.scaling r.args.epsilon X)) (E : Factor K)
    (h : r.computeItemEmbedding ω tr X none = .ok E) :
    E.n = X.cols ∧ X.nrows = tr.user.n ∧
    ∀ i, i < X.cols → ∀ (B : Nat → Fin K → ℝ) (y : Fin K → ℝ), y ≠ E.row i →
      loss (paramsOf tr.cfg) (Data.ofCSR (scaleX r.args.scaling r.args.epsilon X)) tr.user.row
          (Function.update B i (E.row i)) <
        loss (paramsOf tr.cfg) (Data.ofCSR (scaleX r.args.scaling r.args.epsilon X)) tr.user.row
          (Function.update B i y) := by
  obtain ⟨hT, hc, h1⟩ := transformItem_ok hω (itemEmbedding_none h)
  unfold solverStep at h1
  rw [show r.predictionSolver.solverType = .cholesky from hs] at h1
  obtain ⟨hn, hrow⟩ := stepCholesky_row (hω.at 1) hT _ _ _ h1
  simp only at hn hrow
  rw [Sim.transpose_nrows, scaleX_cols] at hn hrow
  refine ⟨hn, by rw [← hc, scaleX_nrows], fun i hi B y hy => ?_⟩
  have hvt : Valid tr.cfg (transpose (scaleX r.args.scaling r.args.epsilon X)) :=
    ⟨Sim.transpose_proper _ hv.proper, transpose_nonNeg hv.nonneg, hv.reg, hv.alpha0⟩
  have hm := choleskyRow_min hv.alpha0 hv.reg (nonNeg_row hvt.nonneg i) _ (hrow i hi)
  have := (loss_lt_of_rows tr.cfg _ hvt.proper tr.user (Function.update B i y)
    (Function.update B i (E.row i)) (by rw [← hc]; rfl) (by
      intro w _
      by_cases hw : w = i
      · subst hw
        right
        rw [Function.update_self, Function.update_self]
        exact rowQ_strict w hm.1 0 _ (by rw [smul_zero]; exact hm.2) _ hy
      · left
        rw [Function.update_of_ne hw, Function.update_of_ne hw])).2
  rw [ofCSR_transpose _ hv.proper, loss_eq_priorLoss, loss_eq_priorLoss, priorLoss_swap, priorLoss_swap,
    ← loss_eq_priorLoss, ← loss_eq_priorLoss, Sim.transpose_nrows, scaleX_cols] at this
  exact this ⟨i, hi, by rw [Function.update_self, Function.update_self]; exact hy.symm⟩

/-! ## C46 -/

/-- C46.  For every valid range, number of threads and interleaving, `user_scores(begin, end)` is rows
`begin … end - 1` of the matrix of inner products. -/
theorem C46_block_scores {ω : Oracle T} (hω : ω.Complete) (hT : 0 < T) (tr : Trainer K) (b e : Nat)
    (hbe : b ≤ e) (he : e ≤ tr.user.n) :
    ∃ m, tr.userScores ω b e = .ok (e - b, m) ∧
      ∀ r, r < e - b → ∀ i, i < tr.item.n → m r i = score (tr.user.row (b + r)) (tr.item.row i) := by
  unfold Trainer.userScores
  rw [if_neg (by omega), if_neg (by omega), if_neg (by omega)]
  simp only
  rw [parRows_total hω hT (by unfold scoreChunk; omega)
    (f := fun r _ => Except.ok fun i => if i < tr.item.n then tr.user.row (r + b) ⬝ᵥ tr.item.row i else 0)
    (fun r => fun i => if i < tr.item.n then tr.user.row (r + b) ⬝ᵥ tr.item.row i else 0) (fun r _ => rfl)]
  refine ⟨_, rfl, fun r hr i hi => ?_⟩
  simp only [if_pos hr, if_pos hi]
  rw [Nat.add_comm b r]
  rfl

/-- C46 (agreement).  `get_score_block(begin, end)` and `get_score([begin, …, end - 1])` give the same
scores. -/
theorem C46_block_equals_indexed {ω : Oracle T} (hω : ω.Complete) (hT : 0 < T) (tr : Trainer K)
    (b e : Nat) (hbe : b ≤ e) (he : e ≤ tr.user.n) :
    ∃ m rows, tr.userScores ω b e = .ok (e - b, m) ∧
      getScore tr ((List.range (e - b)).map (fun r => b + r)) = .ok rows ∧ rows.length = e - b ∧
      ∀ r (hr : r < rows.length), ∀ i, i < tr.item.n → m r i = rows[r] i := by
  obtain ⟨m, hm, hval⟩ := C46_block_scores hω hT tr b e hbe he
  refine ⟨m, _, hm, by
    unfold getScore
    rw [if_pos]
    rw [List.all_eq_true]
    intro u hu
    obtain ⟨r, hr, rfl⟩ := List.mem_map.mp hu
    have := List.mem_range.mp hr
    exact decide_eq_true (by omega), by simp, ?_⟩
  intro r hr i hi
  have hr' : r < e - b := by simpa using hr
  rw [hval r hr' i hi]
  simp only [List.getElem_map, List.getElem_range, if_pos hi]
  rfl

/-- C46 (`get_score`).  Any list of known users, in any order and with repetitions, gets one row each with
the scalar products of the user's and the items' embeddings; an unknown user is an index error. -/
theorem C46_get_score (tr : Trainer K) (users : List Nat) :
    ((∀ u ∈ users, u < tr.user.n) → ∃ rows, getScore tr users = .ok rows ∧ rows.length = users.length ∧
      ∀ r (hr : r < rows.length) (hu : r < users.length), ∀ i < tr.item.n,
        rows[r] i = score (tr.user.row users[r]) (tr.item.row i)) ∧
    ((∃ u ∈ users, tr.user.n ≤ u) → getScore tr users = .error .indexError) := by
  unfold getScore
  constructor
  · intro h
    rw [if_pos (List.all_eq_true.mpr (fun u hu => decide_eq_true (h u hu)))]
    refine ⟨_, rfl, by simp, fun r hr hu i hi => ?_⟩
    simp only [List.getElem_map, if_pos hi]
    rfl
  · rintro ⟨u, hu, hn⟩
    rw [if_neg]
    intro h
    have := of_decide_eq_true (List.all_eq_true.mp h u hu)
    omega

/-- C46 (error branches).  Reversed ranges, ranges beyond the last user and zero threads are
rejected. -/
theorem C46_invalid_ranges {ω : Oracle T} (tr : Trainer K) (b e : Nat)
    (h : T = 0 ∨ e < b ∨ tr.user.n < e) : tr.userScores ω b e = .error .invalidArgument := by
  unfold Trainer.userScores
  by_cases h1 : T = 0
  · rw [if_pos h1]
  · rw [if_neg h1]
    by_cases h2 : e < b
    · rw [if_pos h2]
    · rw [if_neg h2, if_pos (by omega)]

/-! ## Non-vacuity -/

/-- a recommender of the example data with the given solver, logarithmic scaling -/
noncomputable def exampleArgs (solver : String) : RecArgs where
  X := exampleX
  nComponents := 3
  alpha0 := 1 / 2
  reg := 1
  nu := 1
  scaling := .log
  epsilon := 1
  initStd := 1 / 10
  solverName := solver
  maxCgSteps := 3
  subspaceDimension := 2
  lossType := .ialspp
  nuStar := none
  randomSeed := 42
  predictionMaxCgSteps := 5
  predictionIteration := 7
  userF := none
  itemF := none
  lambdaUser := 0
  lambdaItem := 0
  warmup := 0

/-- For the solver names accepted by the constructor, a recommender of the example data can be built
and, with a trainer on its data, embeds a batch of three profiles, one of which is empty. -/
example : ∃ r, Recommender.new (exampleArgs "cholesky") = .ok r ∧ r.solverType = .cholesky ∧
    ∃ (ω : Oracle 3) (tr : Trainer 3) (E : Factor 3), ω.Complete ∧
      tr.Reached r.config (scaleX r.args.scaling r.args.epsilon r.args.X) ∧
      Valid tr.cfg (scaleX r.args.scaling r.args.epsilon ⟨2, [[(0, 2), (1, 1)], [], [(1, 4)]]⟩) ∧
      r.computeUserEmbedding ω tr ⟨2, [[(0, 2), (1, 1)], [], [(1, 4)]]⟩ none = .ok E := by
  refine ⟨⟨exampleArgs "cholesky", .cholesky, 1⟩, by
    unfold Recommender.new strToSolverType
    rw [show (exampleArgs "cholesky").solverName.toUpper = "CHOLESKY" by
      show "cholesky".toUpper = "CHOLESKY"
      decide +kernel]
    rw [if_neg (by decide), if_pos rfl]
    simp only [bind, Except.bind]
    rw [show scaledReg (exampleArgs "cholesky").X (exampleArgs "cholesky").alpha0
      (exampleArgs "cholesky").reg (exampleArgs "cholesky").nu (exampleArgs "cholesky").nuStar = .ok 1
      from rfl]
    simp only
    rw [if_neg (by simp [exampleArgs])]
    rfl, rfl, ?_⟩
  obtain ⟨ω, hω⟩ := exists_complete_oracle 3 (by norm_num)
  have hval : Valid (Recommender.config ⟨exampleArgs "cholesky", .cholesky, 1⟩)
      (scaleX .log 1 ⟨2, [[(0, 2), (1, 1)], [], [(1, 4)]]⟩) := by
    apply validScaled
    · norm_num [Recommender.config]
    · norm_num [Recommender.config, exampleArgs]
    · norm_num
    · constructor
      · intro row hrow e he
        simp only [List.mem_cons, List.not_mem_nil, or_false] at hrow
        rcases hrow with rfl | rfl | rfl
        · simp only [List.mem_cons, List.not_mem_nil, or_false] at he
          rcases he with rfl | rfl <;> norm_num
        · simp at he
        · simp only [List.mem_cons, List.not_mem_nil, or_false] at he
          subst he; norm_num
      · intro row hrow
        simp only [List.mem_cons, List.not_mem_nil, or_false] at hrow
        rcases hrow with rfl | rfl | rfl <;> simp
    · intro row hrow e he
      simp only [List.mem_cons, List.not_mem_nil, or_false] at hrow
      rcases hrow with rfl | rfl | rfl
      · simp only [List.mem_cons, List.not_mem_nil, or_false] at he
        rcases he with rfl | rfl <;> norm_num
      · simp at he
      · simp only [List.mem_cons, List.not_mem_nil, or_false] at he
        subst he; norm_num
  obtain ⟨E, hE⟩ := C45_cold_user_succeeds hω (by norm_num) ⟨exampleArgs "cholesky", .cholesky, 1⟩
    (Trainer.create (Recommender.config ⟨exampleArgs "cholesky", .cholesky, 1⟩)
      (scaleX .log 1 exampleX) (fun u k => u + k.val) (fun i k => 1 + i * k.val) : Trainer 3)
    ⟨2, [[(0, 2), (1, 1)], [], [(1, 4)]]⟩ (logDefined_of_nonneg _ (by norm_num [exampleArgs]) (by
      intro row hrow e he
      simp only [List.mem_cons, List.not_mem_nil, or_false] at hrow
      rcases hrow with rfl | rfl | rfl
      · simp only [List.mem_cons, List.not_mem_nil, or_false] at he
        rcases he with rfl | rfl <;> norm_num
      · simp at he
      · simp only [List.mem_cons, List.not_mem_nil, or_false] at he
        subst he; norm_num)) hval (by
      refine ⟨by norm_num [Trainer.create, Recommender.config], fun row _ => Or.inr ?_⟩
      have : (0 : ℝ) ≤ row.length := Nat.cast_nonneg _
      rw [scaleX_cols]
      norm_num [Trainer.create, Recommender.config, exampleArgs]
      linarith) rfl
  exact ⟨ω, _, E, hω, Trainer.Reached.create _ _, hval, hE⟩

/-- C46: rows 1 to 2 of the scores of the example trainer, computed with two threads. -/
example : ∃ ω : Oracle 2, ω.Complete ∧ ∃ m, exampleTrainer.userScores ω 1 2 = .ok (1, m) ∧ m 0 1 = 14 := by
  obtain ⟨ω, hω⟩ := exists_complete_oracle 2 (by norm_num)
  obtain ⟨m, hm, hval⟩ := C46_block_scores hω (by norm_num) exampleTrainer 1 2 (by norm_num) (by decide)
  refine ⟨ω, hω, m, hm, ?_⟩
  rw [hval 0 (by norm_num) 1 (by decide)]
  simp only [score, exampleTrainer, Trainer.create, Fin.sum_univ_three]
  norm_num

end Irspack.Ials
