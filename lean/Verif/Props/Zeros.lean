import Verif.Proofs.ZerosIals
import Verif.Props.Silent
import Verif.Props.Evaluator
import Verif.Model.Split

/-!
# C94: interactions stored with the value zero
-/

namespace Irspack.Props

open RecClasses Sim Spec.Sim Spec.Zeros Spec.Scale

/-- C94 (the matrix).  Dropping the stored zeros changes neither the shape nor a value, leaves no stored zero, and
changes nothing in a matrix that stores none. -/
theorem C94_values {R : Type} [AddMonoid R] [DecidableEq R] (X : CSR R) :
    (withoutZeros X).nrows = X.nrows ∧ (withoutZeros X).cols = X.cols ∧ (∀ u i, (withoutZeros X).get u i = X.get u i) ∧
    (∀ row ∈ (withoutZeros X).rows, ∀ e ∈ row, e.2 ≠ 0) ∧
    ((∀ row ∈ X.rows, ∀ e ∈ row, e.2 ≠ 0) → withoutZeros X = X) := by
  refine ⟨withoutZeros_nrows X, rfl, withoutZeros_get X, ?_, ?_⟩
  · intro row hr e he
    obtain ⟨row', -, rfl⟩ := List.mem_map.mp hr
    exact ((mem_kept row' e).mp he).2
  · intro h
    obtain ⟨c, rows⟩ := X
    unfold withoutZeros
    simp only [CSR.mk.injEq, true_and]
    refine (List.map_congr_left (g := id) fun row hr => ?_).trans (List.map_id _)
    exact List.filter_eq_self.mpr (fun e he => by simpa using h row hr e he)

/-! ## Scores and masks -/

/-- C94 (scores).  The scores of `get_score`, `get_score_block` and `get_score_cold_user` of the item-similarity,
user-similarity and popularity recommenders do not depend on stored zeros of the training matrix, of the learnt
similarities or of the new users' rows. -/
theorem C94_scores {R : Type} [Semiring R] [DecidableEq R] (X U x : CSR R) (W : Option (Score.Dense R))
    (users : List Int) (b e : Int) :
    (Score.similarity (withoutZeros X) W).getScore users = (Score.similarity X W).getScore users ∧
    (Score.similarity (withoutZeros X) W).getScoreBlock b e = (Score.similarity X W).getScoreBlock b e ∧
    (Score.similarity (withoutZeros X) W).getScoreColdUser (withoutZeros x) = (Score.similarity X W).getScoreColdUser x ∧
    (Score.userSimilarity (withoutZeros X) (some (withoutZeros U))).getScore users =
      (Score.userSimilarity X (some U)).getScore users ∧
    (Score.userSimilarity (withoutZeros X) (some (withoutZeros U))).getScoreBlock b e =
      (Score.userSimilarity X (some U)).getScoreBlock b e ∧
    Score.popularity (withoutZeros X) = Score.popularity X ∧
    Score.toDense (withoutZeros X) = Score.toDense X := by
  refine ⟨?_, ?_, ?_, ?_, ?_, ?_, Score.toDense_withoutZeros X⟩
  · unfold Score.similarity
    simp only [Score.pickRows_withoutZeros]
    cases Score.pickRows X users with
    | error _ => rfl
    | ok m =>
      cases W with
      | none => rfl
      | some W => exact Score.dotSparse_withoutZeros m W
  · unfold Score.similarity
    simp only [Score.sliceRows_withoutZeros, Score.dotSparse_withoutZeros]
  · unfold Score.similarity
    simp only [Score.dotSparse_withoutZeros]
  · unfold Score.userSimilarity
    simp only [Score.pickRows_withoutZeros, Score.toDense_withoutZeros, Score.fitted, bind, Except.bind]
    cases Score.pickRows U users with
    | error _ => rfl
    | ok m => exact Score.dotSparse_withoutZeros m _
  · unfold Score.userSimilarity
    simp only [Score.sliceRows_withoutZeros, Score.toDense_withoutZeros, Score.dotSparse_withoutZeros, Score.fitted, bind,
      Except.bind]
  · funext j
    unfold Score.popularity withoutZeros
    simp only [List.map_map]
    congr 1
    exact List.map_congr_left (fun row _ => kept_get row j)

/-- C94 (masks).  An item stored with the value zero is not treated as seen: if the score functions of two recommenders
agree and their matrices differ in stored zeros only, so do the scores with the seen items removed. -/
theorem C94_masks {R : Type} [Semiring R] [DecidableEq R] (r r' : Score.Recommender R) (hX : r'.X = withoutZeros r.X)
    (users : List Int) (b e : Int) (x : CSR R) :
    (r'.getScore users = r.getScore users → r'.getScoreRemoveSeen users = r.getScoreRemoveSeen users) ∧
    (r'.getScoreBlock b e = r.getScoreBlock b e → r'.getScoreRemoveSeenBlock b e = r.getScoreRemoveSeenBlock b e) ∧
    (r'.getScoreColdUser (withoutZeros x) = r.getScoreColdUser x →
      r'.getScoreColdUserRemoveSeen (withoutZeros x) = r.getScoreColdUserRemoveSeen x) := by
  refine ⟨fun h => ?_, fun h => ?_, fun h => ?_⟩
  · unfold Score.Recommender.getScoreRemoveSeen
    rw [h, hX, Score.pickRows_withoutZeros]
    cases r.getScore users with
    | error _ => rfl
    | ok s =>
      cases Score.pickRows r.X users with
      | error _ => rfl
      | ok m => exact Score.maskSeen_withoutZeros m s
  · unfold Score.Recommender.getScoreRemoveSeenBlock
    rw [h, hX, Score.sliceRows_withoutZeros]
    simp only [Score.maskSeen_withoutZeros]
  · unfold Score.Recommender.getScoreColdUserRemoveSeen
    rw [h]
    simp only [Score.maskSeen_withoutZeros]

/-! ## Linear recommenders -/

/-- the dense matrix that `DenseSLIMRecommender` and `EDLAERecommender` work with -/
def denseOf (U F : Nat) (X : CSR ℝ) : Matrix (Fin U) (Fin F) ℝ := fun u i => X.get u i

/-- C94 (`DenseSLIMRecommender` and `EDLAERecommender`).  For all arguments, also when they are rejected, they learn
the same. -/
theorem C94_linear (U F : Nat) (X : CSR ℝ) (given : Args) :
    denseSlimFit (denseOf U F (withoutZeros X)) given = denseSlimFit (denseOf U F X) given ∧
    edlaeFit (denseOf U F (withoutZeros X)) given = edlaeFit (denseOf U F X) given := by
  have : denseOf U F (withoutZeros X) = denseOf U F X := by
    funext u i
    exact withoutZeros_get X u i
  rw [this]
  exact ⟨rfl, rfl⟩

/-- C94 (SLIM).  For all arguments and every run of `SLIMRecommender`: the same result. -/
theorem C94_slim (r : SlimRun) (e : Env) (X : CSC ℝ) (hX : ∀ col ∈ X.cols, (col.map Prod.fst).Nodup) (given : Args) :
    slimFit r e (withoutZerosCSC X) given = slimFit r e X given := by
  unfold slimFit slimLearn slimCall slimEntry
  simp only [Slim.slim_withoutZeros _ X hX]
  rfl

/-! ## Neighbourhoods -/

/-- C94 (item and user neighbourhoods).  The cosine and asymmetric cosine similarities, with every shrinkage and
`top_k`, differ in stored zeros only. -/
theorem C94_knn_partial {nth : Nat → SpVec ℝ → List Nat} (hnth : NthOk nth) (kind : Kind)
    (hk : (∃ b, kind = .cosine b) ∨ ∃ a, kind = .asymmetric a) (s : ℝ) (X : CSR ℝ) (hX : NonNegative X) (T k : Nat) :
    (itemKnnW nth .none kind s (withoutZeros X) T k).map withoutZeros = (itemKnnW nth .none kind s X T k).map withoutZeros ∧
    (userKnnU nth .none kind s (withoutZeros X) T k).map withoutZeros = (userKnnU nth .none kind s X T k).map withoutZeros := by
  have hk' : ByValue kind := by rcases hk with ⟨b, rfl⟩ | ⟨a, rfl⟩ <;> trivial
  constructor
  · unfold itemKnnW
    simp only [Weighting.apply]
    rw [transpose_withoutZeros, computeSimilarity_withoutZeros hnth kind hk' s _ _ (nonNegative_transpose hX)
      (nonNegative_transpose hX)]
    cases computeSimilarity nth kind s (transpose X) (transpose X) T 128 k with
    | error _ => rfl
    | ok S => exact removeDiagonal_withoutZeros S
  · unfold userKnnU
    simp only [Weighting.apply]
    rw [computeSimilarity_withoutZeros hnth kind hk' s _ _ hX hX]
    cases computeSimilarity nth kind s X X T 128 k with
    | error _ => rfl
    | ok S => exact removeDiagonal_withoutZeros S

theorem createCosine_kind (self : Args) (r : Kind × ℝ × Nat) (h : createCosine self = .ok r) : ∃ b, r.1 = .cosine b := by
  unfold createCosine at h
  obtain ⟨_, _, h⟩ := Ials.bind_ok h
  obtain ⟨_, _, h⟩ := Ials.bind_ok h
  obtain ⟨_, _, h⟩ := Ials.bind_ok h
  obtain ⟨_, _, h⟩ := Ials.bind_ok h
  obtain ⟨_, _, h⟩ := Ials.bind_ok h
  obtain ⟨_, _, h⟩ := Ials.bind_ok h
  obtain ⟨_, _, h⟩ := Ials.bind_ok h
  obtain ⟨_, _, h⟩ := Ials.bind_ok h
  obtain ⟨_, _, h⟩ := Ials.bind_ok h
  obtain ⟨_, _, h⟩ := Ials.bind_ok h
  cases h
  exact ⟨_, rfl⟩

theorem createAsymmetric_kind (self : Args) (r : Kind × ℝ × Nat) (h : createAsymmetric self = .ok r) :
    ∃ a, r.1 = .asymmetric a := by
  unfold createAsymmetric at h
  obtain ⟨_, _, h⟩ := Ials.bind_ok h
  obtain ⟨_, _, h⟩ := Ials.bind_ok h
  obtain ⟨_, _, h⟩ := Ials.bind_ok h
  obtain ⟨_, _, h⟩ := Ials.bind_ok h
  obtain ⟨_, _, h⟩ := Ials.bind_ok h
  obtain ⟨_, _, h⟩ := Ials.bind_ok h
  obtain ⟨_, _, h⟩ := Ials.bind_ok h
  obtain ⟨_, _, h⟩ := Ials.bind_ok h
  obtain ⟨_, _, h⟩ := Ials.bind_ok h
  obtain ⟨_, _, h⟩ := Ials.bind_ok h
  cases h
  exact ⟨_, rfl⟩

theorem learn_withoutZeros {nth : Nat → SpVec ℝ → List Nat} (hnth : NthOk nth) (create : Args → Except Err (Kind × ℝ × Nat))
    (X : CSR ℝ) (hX : NonNegative X) (self : Args) (hw : weightingOf self = .ok .none)
    (hc : ∀ r, create self = .ok r → (∃ b, r.1 = .cosine b) ∨ ∃ a, r.1 = .asymmetric a) :
    (itemLearn nth create (withoutZeros X) self).map withoutZeros = (itemLearn nth create X self).map withoutZeros ∧
    (userLearn nth create (withoutZeros X) self).map withoutZeros = (userLearn nth create X self).map withoutZeros := by
  unfold itemLearn userLearn
  rw [hw]
  simp only [bind, Except.bind]
  cases h : create self with
  | error _ => exact ⟨rfl, rfl⟩
  | ok r =>
    simp only
    cases attr self "top_k" with
    | error _ => exact ⟨rfl, rfl⟩
    | ok v =>
      simp only
      cases toSize v with
      | error _ => exact ⟨rfl, rfl⟩
      | ok k => exact C94_knn_partial hnth r.1 (hc r h) _ X hX _ _

/-- C94 (the neighbourhood recommenders).  For all arguments without feature weighting, also when they are rejected,
the similarities learnt by `CosineKNNRecommender`, `AsymmetricCosineKNNRecommender`, `CosineUserKNNRecommender` and
`AsymmetricCosineUserKNNRecommender` differ in stored zeros only.  (Missing: the Jaccard and Tversky recommenders and the
feature weightings, for which this fails, see the counterexamples below.) -/
theorem C94_knn_recommenders_partial {nth : Nat → SpVec ℝ → List Nat} (hnth : NthOk nth) (e : Env) (X : CSR ℝ)
    (hX : NonNegative X) (given : Args) (hfw : Argument given "feature_weighting" (.str "NONE") (.str "NONE")) :
    (cosineKnnFit nth e (withoutZeros X) given).map withoutZeros = (cosineKnnFit nth e X given).map withoutZeros ∧
    (asymmetricKnnFit nth e (withoutZeros X) given).map withoutZeros = (asymmetricKnnFit nth e X given).map withoutZeros ∧
    (cosineUserKnnFit nth e (withoutZeros X) given).map withoutZeros = (cosineUserKnnFit nth e X given).map withoutZeros ∧
    (asymmetricUserKnnFit nth e (withoutZeros X) given).map withoutZeros =
      (asymmetricUserKnnFit nth e X given).map withoutZeros := by
  have hc1 : ∀ self r, createCosine self = .ok r → (∃ b, r.1 = .cosine b) ∨ ∃ a, r.1 = .asymmetric a :=
    fun self r h => .inl (createCosine_kind self r h)
  have hc2 : ∀ self r, createAsymmetric self = .ok r → (∃ b, r.1 = .cosine b) ∨ ∃ a, r.1 = .asymmetric a :=
    fun self r h => .inr (createAsymmetric_kind self r h)
  refine ⟨?_, ?_, ?_, ?_⟩
  · unfold cosineKnnFit
    simp only [bind, Except.bind]
    cases h1 : construct cosineKnn given with
    | error _ => rfl
    | ok p =>
      simp only
      cases h : weightedInit e "normalize" p with
      | error _ => rfl
      | ok self => exact (learn_withoutZeros hnth _ X hX self (weighted_none _ rfl e _ given p self hfw h1 h) (hc1 self)).1
  · unfold asymmetricKnnFit
    simp only [bind, Except.bind]
    cases h1 : construct asymmetricCosineKnn given with
    | error _ => rfl
    | ok p =>
      simp only
      cases h : weightedInit e "alpha" p with
      | error _ => rfl
      | ok self => exact (learn_withoutZeros hnth _ X hX self (weighted_none _ rfl e _ given p self hfw h1 h) (hc2 self)).1
  · unfold cosineUserKnnFit
    simp only [bind, Except.bind]
    cases h1 : construct cosineUserKnn given with
    | error _ => rfl
    | ok p =>
      simp only
      cases h : weightedInit e "normalize" p with
      | error _ => rfl
      | ok self => exact (learn_withoutZeros hnth _ X hX self (weighted_none _ rfl e _ given p self hfw h1 h) (hc1 self)).2
  · unfold asymmetricUserKnnFit
    simp only [bind, Except.bind]
    cases h1 : construct asymmetricCosineUserKnn given with
    | error _ => rfl
    | ok p =>
      simp only
      cases h : weightedInit e "alpha" p with
      | error _ => rfl
      | ok self => exact (learn_withoutZeros hnth _ X hX self (weighted_none _ rfl e _ given p self hfw h1 h) (hc2 self)).2

/-! ## Random walks -/

/-- C94 (random walks).  If every user and item that has stored entries has one that is not zero, then for `alpha > 0`
and every `beta` and `top_k` the weights of `P3alphaRecommender` and `RP3betaRecommender` differ in stored zeros only, and
no division is by zero: the powers of the entries of each user and of each item, and the popularity of each item, have
a positive sum.  (Missing: `alpha = 0` and users or items with nothing but zeros, see the counterexamples below, and
`normalize_weight`.) -/
theorem C94_walks_partial {nth : Nat → SpVec ℝ → List Nat} (hnth : NthOk nth) (e : Env) (X : CSR ℝ)
    (hX : NonNegative X) (given : Args) (alpha beta : ℚ) (K : Option Nat) (T : Nat)
    (ha : Argument given "alpha" (.num 1) (.num alpha)) (hbe : Argument given "beta" (.num (3 / 5)) (.num beta))
    (hk : Argument given "top_k" .none (optionalSize K))
    (hb : Argument given "normalize_weight" (.bool false) (.bool false)) (hT : ThreadsAre e given T) (h0 : 0 < alpha)
    (hrow : NoRowOfZeros X) (hcol : NoColumnOfZeros X) :
    (Only given (p3alpha.params.map (·.1)) →
      p3Fit nth e (withoutZeros X) given = (p3Fit nth e X given).map withoutZerosCSC) ∧
    (Only given (rp3beta.params.map (·.1)) →
      rp3Fit nth e (withoutZeros X) given = (rp3Fit nth e X given).map withoutZerosCSC) ∧
    ∀ row ∈ X.rows, ∀ e ∈ row, 0 < (row.map (fun f => f.2 ^ (alpha : ℝ))).sum ∧
      0 < (X.rows.map (fun row => ((row.filter (fun f => decide (f.1 = e.1))).map (fun f => f.2 ^ (alpha : ℝ))).sum)).sum ∧
      0 < (X.rows.map (fun row => SpVec.get row e.1)).sum := by
  have h0' : (0 : ℝ) < alpha := by exact_mod_cast h0
  refine ⟨fun hn => ?_, fun hn => ?_, fun row hr f hf => ⟨?_, ?_, ?_⟩⟩
  · rw [p3Fit_eq e _ given alpha false K T hn ha hk hb hT, p3Fit_eq e _ given alpha false K T hn ha hk hb hT]
    unfold p3Learn
    rw [transpose_withoutZeros, p3W_withoutZeros hnth _ h0' _ (nonNegative_transpose hX)]
    have : (withoutZeros X).cols = X.cols := rfl
    rw [this]
    cases p3W nth alpha (transpose X) T 128 (K.getD X.cols) with
    | error _ => rfl
    | ok W => rfl
  · rw [rp3Fit_eq e _ given alpha beta false K T hn ha hbe hk hb hT, rp3Fit_eq e _ given alpha beta false K T hn ha hbe hk hb hT]
    unfold rp3Learn
    rw [transpose_withoutZeros, rp3W_withoutZeros hnth _ _ h0' _ (nonNegative_transpose hX)]
    have : (withoutZeros X).cols = X.cols := rfl
    rw [this]
    cases rp3W nth alpha beta (transpose X) T 128 (K.getD X.cols) with
    | error _ => rfl
    | ok W => rfl
  · obtain ⟨g, hg, hg0⟩ := hrow row hr (by intro hn; rw [hn] at hf; cases hf)
    exact lt_of_le_of_ne (List.sum_nonneg (by
      intro x hx
      obtain ⟨y, hy, rfl⟩ := List.mem_map.mp hx
      exact Real.rpow_nonneg (hX row hr y hy) _)) (rowPower_ne_zero h0' (hX row hr) hg hg0).symm
  · obtain ⟨row', hr', g, hg, hgi, hg0⟩ := hcol row hr f hf
    have := userNorm_ne_zero h0' hX hr' hg hg0
    rw [hgi] at this
    exact lt_of_le_of_ne (userNorm_nonneg' _ X hX f.1) this.symm
  · obtain ⟨row', hr', g, hg, hgi, hg0⟩ := hcol row hr f hf
    have hnn : ∀ row ∈ X.rows, 0 ≤ SpVec.get row f.1 := fun row hr => nonNegative_get (hX row hr) _
    refine lt_of_le_of_ne (List.sum_nonneg (by
      intro x hx
      obtain ⟨y, hy, rfl⟩ := List.mem_map.mp hx
      exact hnn y hy)) (Ne.symm ?_)
    exact (sum_ne_zero_iff X.rows (fun row => SpVec.get row f.1) hnn).mpr
      ⟨row', hr', (get_ne_zero_iff (hX row' hr') _).mpr ⟨g, hg, hgi, hg0⟩⟩

/-! ## iALS -/

/-- C94 (training iALS).  With the iALS++ loss and `nu = 0`, the embeddings after any number of epochs are the same
from the same initial embeddings, whatever the threads and interleavings of the two runs are.  The conjugate-gradient
solver needs that every user and item that has stored entries has one that is not zero.  (Missing: the other loss and
`nu ≠ 0`, for which this fails, see below.) -/
theorem C94_ials_training_partial {K : Nat} (cfg : Ials.Config) (hl : cfg.lossType = .ialspp) (hnu : cfg.nu = 0)
    (ha : 0 ≤ cfg.alpha0) (hr : 0 < cfg.reg) (X : CSR ℝ) (hX : NonNegative X) (u₀ v₀ : Nat → Fin K → ℝ)
    (epochs epochs' : List Epoch) (he : List.Forall₂ (fun e e' => e'.solver = e.solver) epochs epochs')
    (hc : ∀ e ∈ epochs, 0 < e.threads ∧ e.order.Complete ∧
      (e.solver.solverType = .cg → NoRowOfZeros X ∧ NoRowOfZeros (transpose X)))
    (hc' : ∀ e ∈ epochs', 0 < e.threads ∧ e.order.Complete) :
    ∃ tr tr', train epochs (Ials.Trainer.create cfg X u₀ v₀) = .ok tr ∧
      train epochs' (Ials.Trainer.create cfg (withoutZeros X) u₀ v₀) = .ok tr' ∧
      tr'.user = tr.user ∧ tr'.item = tr.item := by
  have key : ∀ (epochs epochs' : List Epoch), List.Forall₂ (fun e e' => e'.solver = e.solver) epochs epochs' →
      (∀ e ∈ epochs, 0 < e.threads ∧ e.order.Complete ∧
        (e.solver.solverType = .cg → NoRowOfZeros X ∧ NoRowOfZeros (transpose X))) →
      (∀ e ∈ epochs', 0 < e.threads ∧ e.order.Complete) → ∀ t : Ials.Trainer K, t.cfg = cfg → t.X = X → t.Xt = transpose X →
      t.featureAware = false →
      ∃ tr, train epochs t = .ok tr ∧ train epochs' t.cleaned = .ok tr.cleaned := by
    intro epochs epochs' he
    induction he with
    | nil => intro _ _ t _ _ _ _; exact ⟨t, rfl, rfl⟩
    | @cons e e' l l' h1 _ ih =>
      intro hc hc' t hcfg h2 h3 h4
      obtain ⟨c1, c2, c3⟩ := hc e List.mem_cons_self
      obtain ⟨c1', c2'⟩ := hc' e' List.mem_cons_self
      obtain ⟨s, g1, g2, g3, g4, g5, g6⟩ := Ials.step_cleaned c2 c2' c1 c1' e.solver h4
        (by rw [h2]; exact fun r => nonNegative_row hX r)
        (by rw [h3]; exact fun r => nonNegative_row (nonNegative_transpose hX) r)
        (by rw [hcfg]; exact hnu) (by rw [hcfg]; exact hl) (by rw [hcfg]; exact ha) (by rw [hcfg]; exact hr)
        (by rw [h2, h3]; exact c3)
      obtain ⟨tr, k1, k2⟩ := ih (fun e he => hc e (List.mem_cons_of_mem _ he))
        (fun e he => hc' e (List.mem_cons_of_mem _ he)) s (g3.trans hcfg) (g4.trans h2) (g5.trans h3) g6
      refine ⟨tr, ?_, ?_⟩
      · unfold train at k1 ⊢
        rw [List.foldlM_cons, g1]
        exact k1
      · unfold train at k2 ⊢
        rw [List.foldlM_cons, h1, g2]
        exact k2
  obtain ⟨tr, h1, h2⟩ := key epochs epochs' he hc hc' (Ials.Trainer.create cfg X u₀ v₀) rfl rfl rfl rfl
  refine ⟨tr, tr.cleaned, h1, ?_, rfl, rfl⟩
  rw [← h2]
  congr 1
  unfold Ials.Trainer.create Ials.Trainer.cleaned
  simp only [transpose_withoutZeros]
  rw [withoutZeros_nrows]
  rfl

/-- C94 (the loss of iALS).  With `nu = 0` the iALS++ loss of every choice of embeddings is the same. -/
theorem C94_ials_loss_partial {K : Nat} (p : Spec.Ials.Params) (hl : p.original = false) (hnu : p.nu = 0) (X : CSR ℝ)
    (A B : Nat → Fin K → ℝ) :
    Spec.Ials.loss p (Spec.Ials.Data.ofCSR (withoutZeros X)) A B = Spec.Ials.loss p (Spec.Ials.Data.ofCSR X) A B := by
  classical
  have hget : ∀ u i, (Spec.Ials.Data.ofCSR (withoutZeros X)).X u i = (Spec.Ials.Data.ofCSR X).X u i := withoutZeros_get X
  have hU : (Spec.Ials.Data.ofCSR (withoutZeros X)).U = (Spec.Ials.Data.ofCSR X).U := withoutZeros_nrows X
  have hI : (Spec.Ials.Data.ofCSR (withoutZeros X)).I = (Spec.Ials.Data.ofCSR X).I := rfl
  have hS : ∀ u i, (Spec.Ials.Data.ofCSR (withoutZeros X)).S u i → (Spec.Ials.Data.ofCSR X).S u i := by
    intro u i h
    obtain ⟨e, he, rfl⟩ := List.mem_map.mp h
    rw [withoutZeros_row, mem_kept] at he
    exact List.mem_map.mpr ⟨e, he.1, rfl⟩
  have h0 : ∀ u i, ¬ (Spec.Ials.Data.ofCSR (withoutZeros X)).S u i → (Spec.Ials.Data.ofCSR X).X u i = 0 := by
    intro u i h
    rw [← hget]
    show (withoutZeros X).get u i = 0
    unfold CSR.get SpVec.get
    rw [List.filter_eq_nil_iff.mpr]
    · rfl
    · intro e he hi
      exact h (List.mem_map.mpr ⟨e, he, by simpa using hi⟩)
  unfold Spec.Ials.loss Spec.Ials.dataTerm Spec.Ials.userWeight Spec.Ials.itemWeight Spec.Ials.ialsppTerm
  rw [hl, hnu, hU, hI]
  simp only [Real.rpow_zero, Bool.false_eq_true, if_false, hget]
  congr 3
  refine Finset.sum_congr rfl (fun u _ => Finset.sum_subset ?_ ?_)
  · intro i hi
    rw [Finset.mem_filter] at hi ⊢
    exact ⟨hi.1, hS u i hi.2⟩
  · intro i hi hn
    rw [Finset.mem_filter] at hi hn
    rw [h0 u i (fun h => hn ⟨hi.1, h⟩), zero_mul]

/-! ## Where stored zeros count -/

/-- one user with the item 0, and the item 1 stored with the value zero -/
noncomputable def zeroPair : CSR ℝ := ⟨2, [[(0, 1), (1, 0)]]⟩

theorem zeroPair_clean : withoutZeros zeroPair = ⟨2, [[(0, 1)]]⟩ := by
  simp [withoutZeros, kept, zeroPair]

theorem zeroPair_transpose : transpose zeroPair = ⟨1, [[(0, 1)], [(0, 0)]]⟩ ∧
    transpose ⟨2, [[(0, 1)]]⟩ = ⟨1, [[(0, 1)], []]⟩ := by
  simp [transpose, zeroPair, CSR.nrows, CSR.row, List.range_succ]

theorem productRow_two (t r s : SpVec ℝ) (c : Nat) : productRow t ⟨c, [r, s]⟩ =
    (if t.any (fun e => r.any (fun f => decide (f.1 = e.1))) then [(0, (t.map (fun e => e.2 * r.get e.1)).sum)] else []) ++
    (if t.any (fun e => s.any (fun f => decide (f.1 = e.1))) then [(1, (t.map (fun e => e.2 * s.get e.1)).sum)] else []) := by
  have h : List.range (CSR.nrows (⟨c, [r, s]⟩ : CSR ℝ)) = [0, 1] := rfl
  unfold productRow
  rw [h]
  have h0 : (CSR.mk c [r, s]).row 0 = r := rfl
  have h1 : (CSR.mk c [r, s]).row 1 = s := rfl
  simp only [List.filterMap_cons, List.filterMap_nil, h0, h1]
  split_ifs <;> rfl

/-- C94 fails for `JaccardKNNRecommender` and `TverskyIndexKNNRecommender`: a stored zero is an interaction for them. -/
theorem C94_jaccard_counterexample {nth : Nat → SpVec ℝ → List Nat} (hnth : NthOk nth) :
    ∃ (X : CSR ℝ) (W W' V V' : CSR ℝ), NonNegative X ∧ X.get 0 1 = 0 ∧
      itemKnnW nth .none .jaccard 0 X 1 2 = .ok W ∧ itemKnnW nth .none .jaccard 0 (withoutZeros X) 1 2 = .ok W' ∧
      0 < W.get 0 1 ∧ W'.get 0 1 = 0 ∧
      itemKnnW nth .none (.tversky (1 / 2) (1 / 2)) 0 X 1 2 = .ok V ∧
      itemKnnW nth .none (.tversky (1 / 2) (1 / 2)) 0 (withoutZeros X) 1 2 = .ok V' ∧ 0 < V.get 0 1 ∧ V'.get 0 1 = 0 := by
  have acc : ∀ kind, kind = .jaccard ∨ kind = .tversky (1 / 2) (1 / 2) → ∀ rows : List (SpVec ℝ),
      Accepted kind 0 ⟨1, rows⟩ ⟨1, rows⟩ 1 128 := by
    rintro kind (rfl | rfl) rows <;> norm_num [Accepted, Kind.paramsOk]
  have run : ∀ kind, kind = .jaccard ∨ kind = .tversky (1 / 2) (1 / 2) → ∀ X : CSR ℝ, ∀ r s : SpVec ℝ,
      transpose X = ⟨1, [r, s]⟩ → (simRow kind 0 ⟨1, [r, s]⟩ r).length ≤ 2 → ∃ W, itemKnnW nth .none kind 0 X 1 2 = .ok W ∧
      W.get 0 1 = (simRow kind 0 ⟨1, [r, s]⟩ r).get 1 := by
    intro kind hk X r s hX hlen
    unfold itemKnnW
    simp only [Weighting.apply, hX]
    rw [computeSimilarity_eq hnth _ _ _ _ _ _ _ (acc kind hk _)]
    simp only [removeDiagonal, CSR.nrows, List.length_map, List.length_range, List.length_cons, List.length_nil, ne_eq,
      not_true_eq_false, if_false]
    refine ⟨_, rfl, ?_⟩
    have h1 : (CSR.mk 2 (((List.range 2).map (fun q =>
        bestOf 2 (simRow kind 0 ⟨1, [r, s]⟩ ((CSR.mk 1 [r, s]).row q)))).mapIdx zeroAt)).row 0 =
        zeroAt 0 (bestOf 2 (simRow kind 0 ⟨1, [r, s]⟩ r)) := rfl
    unfold CSR.get
    rw [show (0 + 1 + 1 : Nat) = 2 from rfl, h1, bestOf_all _ _ hlen]
    unfold SpVec.get zeroAt
    rw [List.filter_map, List.map_map]
    generalize simRow kind 0 ⟨1, [r, s]⟩ r = v
    clear h1 hlen
    induction v with
    | nil => rfl
    | cons e v ih =>
      by_cases h : 0 = e.1
      · simp [List.filter_cons, h.symm] at ih ⊢
        simpa [h.symm] using ih
      · by_cases h' : e.1 = 1
        · simp [List.filter_cons, h'] at ih ⊢
          exact ih
        · simp [List.filter_cons, h, h'] at ih ⊢
          exact ih
  have p1 : ∀ kind, kind = .jaccard ∨ kind = .tversky (1 / 2) (1 / 2) →
      (simRow kind 0 ⟨1, [[(0, 1)], [(0, 0)]]⟩ [(0, 1)]).length ≤ 2 ∧
      0 < (simRow kind 0 ⟨1, [[(0, 1)], [(0, 0)]]⟩ [(0, 1)]).get 1 := by
    rintro kind (rfl | rfl) <;>
      norm_num [simRow, productRow_two, binarize, rowTotal, CSR.row, SpVec.get]
  have p2 : ∀ kind, kind = .jaccard ∨ kind = .tversky (1 / 2) (1 / 2) →
      (simRow kind 0 ⟨1, [[(0, 1)], []]⟩ [(0, 1)]).length ≤ 2 ∧ (simRow kind 0 ⟨1, [[(0, 1)], []]⟩ [(0, 1)]).get 1 = 0 := by
    rintro kind (rfl | rfl) <;>
      norm_num [simRow, productRow_two, binarize, rowTotal, CSR.row, SpVec.get]
  obtain ⟨W, a1, a2⟩ := run _ (.inl rfl) zeroPair _ _ zeroPair_transpose.1 (p1 _ (.inl rfl)).1
  obtain ⟨W', b1, b2⟩ := run _ (.inl rfl) _ _ _ zeroPair_transpose.2 (p2 _ (.inl rfl)).1
  obtain ⟨V, c1, c2⟩ := run _ (.inr rfl) zeroPair _ _ zeroPair_transpose.1 (p1 _ (.inr rfl)).1
  obtain ⟨V', d1, d2⟩ := run _ (.inr rfl) _ _ _ zeroPair_transpose.2 (p2 _ (.inr rfl)).1
  refine ⟨zeroPair, W, W', V, V', ?_, ?_, a1, by rw [zeroPair_clean]; exact b1, by rw [a2]; exact (p1 _ (.inl rfl)).2,
    by rw [b2]; exact (p2 _ (.inl rfl)).2, c1, by rw [zeroPair_clean]; exact d1, by rw [c2]; exact (p1 _ (.inr rfl)).2,
    by rw [d2]; exact (p2 _ (.inr rfl)).2⟩
  · intro row hr e he
    simp only [zeroPair, List.mem_singleton] at hr
    subst hr
    simp only [List.mem_cons, List.not_mem_nil, or_false] at he
    rcases he with rfl | rfl <;> norm_num
  · simp [zeroPair, CSR.get, CSR.row, SpVec.get]

/-- C94 fails for the feature weightings: the stored zero of another user makes an item look more frequent, so that
its TF-IDF and BM25 weights are smaller. -/
theorem C94_weighting_counterexample : ∃ X : CSR ℝ, X.get 1 0 = 0 ∧
    (tfIdf X true).get 0 0 < (tfIdf (withoutZeros X) true).get 0 0 ∧
    (bm25 X 1 0).get 0 0 < (bm25 (withoutZeros X) 1 0).get 0 0 := by
  have hc : withoutZeros (⟨1, [[(0, 1)], [(0, 0)], []]⟩ : CSR ℝ) = ⟨1, [[(0, 1)], [], []]⟩ := by
    simp [withoutZeros, kept]
  refine ⟨⟨1, [[(0, 1)], [(0, 0)], []]⟩, ?_, ?_, ?_⟩
  · simp [CSR.get, CSR.row, SpVec.get]
  · rw [hc]
    simp only [tfIdf, docFreq, CSR.get, CSR.row, SpVec.get, CSR.nrows]
    norm_num
    exact Real.log_pos (by norm_num)
  · rw [hc]
    simp only [bm25, docFreq, CSR.get, CSR.row, SpVec.get, CSR.nrows]
    norm_num
    exact Real.log_lt_log (by norm_num) (by norm_num)

/-- C94 fails for the random walks with `alpha = 0`, where a stored zero is an interaction, and a user or an item with
nothing but zeros makes `P3alphaRecommender` divide zero by zero: its powers add up to zero. -/
theorem C94_walks_counterexample {nth : Nat → SpVec ℝ → List Nat} (hnth : NthOk nth) :
    (∃ (X : CSR ℝ) (W W' : CSC ℝ), NonNegative X ∧ p3Learn nth 0 X none false 1 = .ok W ∧
      p3Learn nth 0 (withoutZeros X) none false 1 = .ok W' ∧ (W.cols.getD 0 []).get 1 = 1 / 2 ∧
      (W'.cols.getD 0 []).get 1 = 0) ∧
    ∃ X : CSR ℝ, NonNegative X ∧ ∃ row ∈ X.rows, row ≠ [] ∧ (row.map (fun f => f.2 ^ (1 : ℝ))).sum = 0 := by
  have run : ∀ X : CSR ℝ, ∀ r s : SpVec ℝ, X.cols = 2 → transpose X = ⟨1, [r, s]⟩ →
      ∃ W, p3Learn nth 0 X none false 1 = .ok W ∧ W.cols.getD 0 [] =
        productRow (r.map (fun e => (e.1, e.2 ^ (0 : ℝ) / userNorm 0 ⟨1, [r, s]⟩ e.1))) (itemToUser 0 ⟨1, [r, s]⟩) := by
    intro X r s hc hX
    unfold p3Learn p3W
    rw [hX, if_neg (by norm_num)]
    simp only
    rw [computeSimilarity_eq hnth _ _ _ _ _ _ _ (by norm_num [Accepted, Kind.paramsOk, itemToUser])]
    refine ⟨_, rfl, ?_⟩
    rw [hc]
    show bestOf 2 (simRow .raw 0 (itemToUser 0 ⟨1, [r, s]⟩) _) = _
    rw [bestOf_all]
    · rfl
    · show (productRow _ _).length ≤ 2
      unfold productRow
      exact (List.length_filterMap_le _ _).trans (by simp [itemToUser, CSR.nrows])
  constructor
  · obtain ⟨W, h1, h2⟩ := run zeroPair _ _ rfl zeroPair_transpose.1
    obtain ⟨W', h1', h2'⟩ := run _ _ _ rfl zeroPair_transpose.2
    refine ⟨zeroPair, W, W', ?_, h1, by rw [zeroPair_clean]; exact h1', ?_, ?_⟩
    · intro row hr e he
      simp only [zeroPair, List.mem_singleton] at hr
      subst hr
      simp only [List.mem_cons, List.not_mem_nil, or_false] at he
      rcases he with rfl | rfl <;> norm_num
    · rw [h2]
      norm_num [productRow_two, itemToUser, userNorm, SpVec.get]
    · rw [h2']
      norm_num [productRow_two, itemToUser, userNorm, SpVec.get]
  · refine ⟨⟨1, [[(0, 0)]]⟩, ?_, [(0, 0)], by simp, by simp, by simp⟩
    intro row hr e he
    simp only [List.mem_singleton] at hr
    subst hr
    simp only [List.mem_singleton] at he
    subst he
    norm_num

/-- C94 fails for iALS with the original loss, where a stored zero is a positive preference, and with `nu ≠ 0`, where it
counts in the weight of the regularisation: the same embeddings have another loss. -/
theorem C94_ials_loss_counterexample : ∃ (X : CSR ℝ) (p q : Spec.Ials.Params) (A B : Nat → Fin 1 → ℝ), NonNegative X ∧
    p.original = true ∧ p.nu = 0 ∧ q.original = false ∧ q.nu = 1 ∧
    Spec.Ials.loss p (Spec.Ials.Data.ofCSR (withoutZeros X)) A B ≠ Spec.Ials.loss p (Spec.Ials.Data.ofCSR X) A B ∧
    Spec.Ials.loss q (Spec.Ials.Data.ofCSR (withoutZeros X)) A B ≠ Spec.Ials.loss q (Spec.Ials.Data.ofCSR X) A B := by
  have hc : withoutZeros (⟨1, [[(0, 0)]]⟩ : CSR ℝ) = ⟨1, [[]]⟩ := by simp [withoutZeros, kept]
  refine ⟨⟨1, [[(0, 0)]]⟩, ⟨true, 1, 1, 0⟩, ⟨false, 1, 1, 1⟩, fun _ _ => 1, fun _ _ => 0, ?_, rfl, rfl, rfl, rfl, ?_, ?_⟩
  · intro row hr e he
    simp only [List.mem_singleton] at hr
    subst hr
    simp only [List.mem_singleton] at he
    subst he
    norm_num
  · rw [hc]
    norm_num [Spec.Ials.loss, Spec.Ials.dataTerm, Spec.Ials.originalTerm, Spec.Ials.score, Spec.Ials.normSq,
      Spec.Ials.itemWeight, Spec.Ials.userWeight, Spec.Ials.Data.ofCSR, CSR.nrows, CSR.row, CSR.get, SpVec.get]
  · rw [hc]
    norm_num [Spec.Ials.loss, Spec.Ials.dataTerm, Spec.Ials.ialsppTerm, Spec.Ials.score, Spec.Ials.normSq,
      Spec.Ials.itemWeight, Spec.Ials.userWeight, Spec.Ials.Data.userCount, Spec.Ials.Data.ofCSR, CSR.nrows, CSR.row,
      CSR.get, SpVec.get, Finset.filter_singleton]

open Evaluation in
/-- C94 fails for the evaluation: an item stored with the value zero in the ground truth is relevant. -/
theorem C94_evaluator_counterexample : ∃ (X : CSR ℝ) (c c' : Core) (m m' : Metrics), X.get 0 0 = 0 ∧
    Core.make (X.rows.map (List.map Prod.fst)) X.cols [] = .ok c ∧
    Core.make ((withoutZeros X).rows.map (List.map Prod.fst)) X.cols [] = .ok c' ∧
    c.getMetrics (S := WithBot Nat) [fun i => (i : WithBot Nat)] 1 0 1 false = .ok m ∧
    c'.getMetrics (S := WithBot Nat) [fun i => (i : WithBot Nat)] 1 0 1 false = .ok m' ∧
    m.validUser = 1 ∧ m'.validUser = 0 := by
  have hc : withoutZeros (⟨1, [[(0, 0)]]⟩ : CSR ℝ) = ⟨1, [[]]⟩ := by simp [withoutZeros, kept]
  have run : ∀ c : Core, c.gtRows.length = 1 → c.nItems = 1 → c.getMetrics (S := WithBot Nat) [fun i => (i : WithBot Nat)] 1 0 1 false =
      .ok (c.evalRow [fun i => (i : WithBot Nat)] 1 0 false 0 Metrics.empty) := by
    intro c hl hn
    unfold Core.getMetrics
    have : c.checkArgs 1 1 0 1 = .ok () := by simp [Core.checkArgs, Core.nUsers, hl, hn]
    rw [show ([fun i => (i : WithBot Nat)] : List (ScoreRow (WithBot Nat))).length = 1 from rfl, this]
    rfl
  refine ⟨⟨1, [[(0, 0)]]⟩, ⟨1, [[0]], []⟩, ⟨1, [[]], []⟩, _, _, by simp [CSR.get, CSR.row, SpVec.get], rfl, by rw [hc]; rfl,
    run _ rfl rfl, run _ rfl rfl, ?_, ?_⟩
  · simp [Core.evalRow, Core.gtSet, Core.recommendableFor, Metrics.empty, Metrics.incrementTotalUser, Metrics.update]
    split_ifs <;> rfl
  · simp [Core.evalRow, Core.gtSet, Core.recommendableFor, Metrics.empty, Metrics.incrementTotalUser]

open Split in
/-- C94 fails for the split of interactions: a stored zero is an interaction that can be held out. -/
theorem C94_split_counterexample : ∃ (X : Csr ℝ) (X' : Csr ℝ) (shuf : Nat → List Nat) (S S' : Csr ℝ × Csr ℝ),
    X'.rows = X.rows.map kept ∧ rowwiseSplit id X 0 (some 1) false shuf = .ok S ∧
    rowwiseSplit id X' 0 (some 1) false shuf = .ok S' ∧ S.2.rows.map (List.map Prod.fst) = [[1]] ∧
    S'.2.rows.map (List.map Prod.fst) = [[0]] := by
  refine ⟨⟨2, [[(0, 1), (1, 0)]]⟩, ⟨2, [[(0, 1)]]⟩, fun _ => [1, 0], _, _, by simp [kept], by rfl, by rfl, ?_, ?_⟩
  · simp [splitImple, splitRow, rowTriplets, collapse, nTestFixed]
  · simp [splitImple, splitRow, rowTriplets, collapse, nTestFixed]

/-! ## The hypotheses are met -/

/-- two users and two items, with a stored zero but no user or item with nothing else -/
noncomputable def ratedZero : CSR ℝ := ⟨2, [[(0, 1), (1, 0)], [(0, 2), (1, 3)]]⟩

theorem ratedZero_ok : NonNegative ratedZero ∧ NoRowOfZeros ratedZero ∧ NoColumnOfZeros ratedZero ∧
    NoRowOfZeros (transpose ratedZero) ∧ withoutZeros ratedZero ≠ ratedZero := by
  have ht : transpose ratedZero = ⟨2, [[(0, 1), (1, 2)], [(0, 0), (1, 3)]]⟩ := by
    simp [transpose, ratedZero, CSR.nrows, CSR.row, List.range_succ]
  refine ⟨?_, ?_, ?_, ?_, ?_⟩
  · intro row hr e he
    simp only [ratedZero, List.mem_cons, List.not_mem_nil, or_false] at hr
    rcases hr with rfl | rfl <;> simp only [List.mem_cons, List.not_mem_nil, or_false] at he <;>
      rcases he with rfl | rfl <;> norm_num
  · intro row hr _
    simp only [ratedZero, List.mem_cons, List.not_mem_nil, or_false] at hr
    rcases hr with rfl | rfl
    · exact ⟨(0, 1), by simp, by norm_num⟩
    · exact ⟨(0, 2), by simp, by norm_num⟩
  · intro row hr e he
    simp only [ratedZero, List.mem_cons, List.not_mem_nil, or_false] at hr
    rcases hr with rfl | rfl <;> simp only [List.mem_cons, List.not_mem_nil, or_false] at he <;>
      rcases he with rfl | rfl <;> refine ⟨[(0, 2), (1, 3)], by simp [ratedZero], ?_⟩ <;> simp
  · rw [ht]
    intro row hr _
    simp only [List.mem_cons, List.not_mem_nil, or_false] at hr
    rcases hr with rfl | rfl
    · exact ⟨(0, 1), by simp, by norm_num⟩
    · exact ⟨(1, 3), by simp, by norm_num⟩
  · simp [withoutZeros, kept, ratedZero]

/-- a call, a configuration and two epochs for which the theorems say something about this matrix -/
example : ∃ (cfg : Ials.Config) (epochs : List Epoch), cfg.lossType = .ialspp ∧ cfg.nu = 0 ∧ 0 < cfg.alpha0 ∧ 0 < cfg.reg ∧
    epochs.length = 2 ∧ (∀ e ∈ epochs, 0 < e.threads ∧ e.order.Complete ∧
      (e.solver.solverType = .cg → NoRowOfZeros ratedZero ∧ NoRowOfZeros (transpose ratedZero))) := by
  obtain ⟨o2, h2⟩ := Ials.exists_complete_oracle 2 (by norm_num)
  obtain ⟨o3, h3⟩ := Ials.exists_complete_oracle 3 (by norm_num)
  refine ⟨⟨1, 1, 1, 0, 1, 0, .ialspp, 0, 0, 0⟩, [⟨2, o2, ⟨.ialspp, 0, 1, 1⟩⟩, ⟨3, o3, ⟨.cg, 0, 1, 1⟩⟩], rfl, rfl, by norm_num,
    by norm_num, rfl, ?_⟩
  intro e he
  simp only [List.mem_cons, List.not_mem_nil, or_false] at he
  rcases he with rfl | rfl
  · exact ⟨by norm_num, h2, nofun⟩
  · exact ⟨by norm_num, h3, fun _ => ⟨ratedZero_ok.2.1, ratedZero_ok.2.2.2.1⟩⟩

example : Argument [("top_k", .num 1)] "feature_weighting" (.str "NONE") (.str "NONE") ∧
    Argument [("top_k", .num 1)] "alpha" (.num 1) (.num 1) ∧
    Argument [("top_k", .num 1)] "normalize_weight" (.bool false) (.bool false) ∧
    Only [("top_k", .num 1)] (p3alpha.params.map (·.1)) ∧ ThreadsAre exampleEnv2 [("top_k", .num 1)] 2 :=
  ⟨.inr ⟨rfl, rfl⟩, .inr ⟨rfl, rfl⟩, .inr ⟨rfl, rfl⟩, by intro a ha; simp at ha; subst ha; decide,
    .inr ⟨.inr ⟨rfl, rfl⟩, rfl⟩⟩

end Irspack.Props
