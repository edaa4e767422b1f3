import Mathlib.Tactic.Set
import Verif.Props.IalsState
import Verif.Props.EarlyStop
import Verif.Proofs.IalsSched

/-!
# C62 (iALS does not depend on threads), C51 and C53 for iALS

`ialsOps r u₀ v₀ ω` is the trainer of the recommender `r`; `ω k` says how many threads run the epoch with
index `k` and how they interleave.  Arithmetic is exact: in floating point the sums of the worker threads
are added in another order, and equality holds up to rounding only.
-/

namespace Irspack.Ials

open EarlyStop Spec.Ials

variable {K T T' : Nat}

/-! ## C62 -/

/-- C62 (one epoch).  An epoch gives the same trainer whatever the (positive) number of threads and their
interleaving, or raises for all of them. -/
theorem C62_epoch {ω : Oracle T} {ω' : Oracle T'} (hω : ω.Complete) (hω' : ω'.Complete) (hT : 0 < T)
    (hT' : 0 < T') (sc : SolverConfig) (tr : Trainer K) : Agree (tr.step ω sc) (tr.step ω' sc) :=
  step_agree hω hω' hT hT' sc tr

/-- C62 (training).  So does training for any number of epochs, with another schedule in each. -/
theorem C62_training {ω : Nat → Oracle T} {ω' : Nat → Oracle T'} (hω : ∀ k, (ω k).Complete)
    (hω' : ∀ k, (ω' k).Complete) (hT : 0 < T) (hT' : 0 < T') (r : Recommender) (u₀ v₀ : Nat → Vec K)
    (n : Nat) : Agree ((ialsOps r u₀ v₀ ω).after n) ((ialsOps r u₀ v₀ ω').after n) :=
  ialsOps_after_agree hω hω' hT hT' n

/-- C62 (scores of known users), in blocks. -/
theorem C62_user_scores {ω : Oracle T} {ω' : Oracle T'} (hω : ω.Complete) (hω' : ω'.Complete) (hT : 0 < T)
    (hT' : 0 < T') (tr : Trainer K) (b e : Nat) : Agree (tr.userScores ω b e) (tr.userScores ω' b e) :=
  userScores_agree hω hω' hT hT' tr b e

/-- C62 (embeddings of new users and items), with and without features. -/
theorem C62_embeddings {ω : Oracle T} {ω' : Oracle T'} (hω : ω.Complete) (hω' : ω'.Complete) (hT : 0 < T)
    (hT' : 0 < T') (r : Recommender) (tr : Trainer K) (X : CSR ℝ) (feat : Option Features) :
    Agree (r.computeUserEmbedding ω tr X feat) (r.computeUserEmbedding ω' tr X feat) ∧
      Agree (r.computeItemEmbedding ω tr X feat) (r.computeItemEmbedding ω' tr X feat) := by
  by_cases hl : LogDefined r.args.scaling r.args.epsilon X
  swap
  · unfold Recommender.computeUserEmbedding Recommender.computeItemEmbedding
    rw [scaled_not hl]
    exact ⟨Agree.refl _, Agree.refl _⟩
  rw [userEmbedding_eq hl, userEmbedding_eq hl, itemEmbedding_eq hl, itemEmbedding_eq hl]
  cases feat with
  | none => exact ⟨transformUser_agree hω hω' hT hT' _ _ _, transformItem_agree hω hω' hT hT' _ _ _⟩
  | some feat => exact ⟨transformUserWithFeature_agree hω hω' hT hT' _ _ _ _,
      transformItemWithFeature_agree hω hω' hT hT' _ _ _ _⟩

/-- C62 (scores of new users). -/
theorem C62_cold_scores {ω : Oracle T} {ω' : Oracle T'} (hω : ω.Complete) (hω' : ω'.Complete) (hT : 0 < T)
    (hT' : 0 < T') (r : Recommender) (tr : Trainer K) (X : CSR ℝ) (feat : Option Features) :
    Agree (r.getScoreColdUser ω tr X feat) (r.getScoreColdUser ω' tr X feat) :=
  Agree.bind (C62_embeddings hω hω' hT hT' r tr X feat).1 (fun _ => Agree.refl _)

/-- C62 (scores of new users for known and additional items). -/
theorem C62_cold_scores_item_features {ω : Oracle T} {ω' : Oracle T'} (hω : ω.Complete)
    (hω' : ω'.Complete) (hT : 0 < T) (hT' : 0 < T') (r : Recommender) (tr : Trainer K) (X : CSR ℝ)
    (feat : Features) :
    Agree (r.getScoreColdUserWithItemFeatures ω tr X feat)
      (r.getScoreColdUserWithItemFeatures ω' tr X feat) := by
  unfold Recommender.getScoreColdUserWithItemFeatures
  split
  · exact Agree.refl _
  · simp only
    split
    · exact Agree.bind (C62_embeddings (hω.at 0) (hω'.at 0) hT hT' r tr _ (some feat)).2
        (fun items => Agree.bind (C62_embeddings (hω.at 1) (hω'.at 1) hT hT' r tr X none).1
          (fun _ => Agree.refl _))
    · exact Agree.bind (C62_embeddings (hω.at 1) (hω'.at 1) hT hT' r tr X none).1 (fun _ => Agree.refl _)

/-- C62 (`learn`).  Two recommenders with the same arguments, trained with different positive numbers of
threads, end up with the same trainer after running the same epochs, or raise both. -/
theorem C62_learn {S : Type} [LinearOrder S] [OrderBot S] [Neg S] {ω : Nat → Oracle T}
    {ω' : Nat → Oracle T'} (hω : ∀ k, (ω k).Complete) (hω' : ∀ k, (ω' k).Complete) (hT : 0 < T)
    (hT' : 0 < T') (r : Recommender) (u₀ v₀ : Nat → Vec K) (m : Rec (Trainer K) (SavedState K)) :
    (∃ tr : Trainer K, learn (S := S) (ialsOps r u₀ v₀ ω) m =
        (({ m with trainer := some tr }, (List.range m.trainEpochs).map .epoch), .ok ()) ∧
      learn (S := S) (ialsOps r u₀ v₀ ω') m =
        (({ m with trainer := some tr }, (List.range m.trainEpochs).map .epoch), .ok ())) ∨
    ∃ e e', (learn (S := S) (ialsOps r u₀ v₀ ω) m).2 = .error e ∧
      (learn (S := S) (ialsOps r u₀ v₀ ω') m).2 = .error e' := by
  rcases C62_training hω hω' hT hT' r u₀ v₀ m.trainEpochs with ⟨tr, h1, h2⟩ | ⟨e, e', h1, h2⟩
  · left
    refine ⟨tr, ?_, ?_⟩
    · rcases C53_learn (S := S) (ialsOps r u₀ v₀ ω) m with ⟨st, hst, h⟩ | ⟨e, -, hst⟩
      · rw [h1] at hst; rw [h, Except.ok.inj hst]
      · rw [h1] at hst; cases hst
    · rcases C53_learn (S := S) (ialsOps r u₀ v₀ ω') m with ⟨st, hst, h⟩ | ⟨e, -, hst⟩
      · rw [h2] at hst; rw [h, Except.ok.inj hst]
      · rw [h2] at hst; cases hst
  · right
    refine ⟨e, e', ?_, ?_⟩
    · rcases C53_learn (S := S) (ialsOps r u₀ v₀ ω) m with ⟨st, hst, -⟩ | ⟨e, h, hst⟩
      · rw [h1] at hst; cases hst
      · rw [h1] at hst; rw [h, Except.error.inj hst]
    · rcases C53_learn (S := S) (ialsOps r u₀ v₀ ω') m with ⟨st, hst, -⟩ | ⟨e, h, hst⟩
      · rw [h2] at hst; cases hst
      · rw [h2] at hst; rw [h, Except.error.inj hst]

/-- C62 (training succeeds).  A recommender without features whose regularisation is positive for every
user and item trains for any number of epochs without raising, with every solver. -/
theorem C62_training_succeeds {ω : Nat → Oracle T} (hω : ∀ k, (ω k).Complete) (hT : 0 < T)
    (r : Recommender) (hu : r.args.userF = none) (hi : r.args.itemF = none)
    (hl : LogDefined r.args.scaling r.args.epsilon r.args.X)
    (hv : Valid r.config (scaleX r.args.scaling r.args.epsilon r.args.X))
    (hpu : RegPositive r.config (scaleX r.args.scaling r.args.epsilon r.args.X))
    (hpi : RegPositive r.config (transpose (scaleX r.args.scaling r.args.epsilon r.args.X)))
    (u₀ v₀ : Nat → Vec K) (n : Nat) : ∃ tr, (ialsOps r u₀ v₀ ω).after n = .ok tr := by
  have key : ∃ tr : Trainer K, (ialsOps r u₀ v₀ ω).after n = .ok tr ∧
      tr.Reached r.config (scaleX r.args.scaling r.args.epsilon r.args.X) ∧ tr.featureAware = false := by
    induction n with
    | zero =>
      refine ⟨_, ?_, Trainer.Reached.create u₀ v₀, rfl⟩
      show r.createTrainer u₀ v₀ = _
      rw [createTrainer_eq hl]
      unfold Recommender.trainerOn
      rw [hu, hi]
    | succ n ih =>
      obtain ⟨tr, h1, h2, h3⟩ := ih
      obtain ⟨tr', h4, -⟩ := C42_epoch_regularised (hω n) hT _ _ hv hpu hpi r.trainSolver tr h2 h3
      obtain ⟨hg, hc, hx⟩ := reached_good hv h2
      refine ⟨tr', ?_, Trainer.Reached.step _ _ _ _ (hω n) h2 h4, ?_⟩
      · unfold TrainerOps.after at h1 ⊢
        rw [Spec.EarlyStop.stateAfter, h1]
        exact h4
      · exact ((step_good (hω n) tr tr' hg h4 (hx ▸ hv.proper) (hx ▸ hv.nonneg) (hc ▸ hv.reg)
          (hc ▸ hv.alpha0)).2.2.2.2.1).trans h3
  exact key.imp fun _ h => h.1

/-! ## C51 and C53 for iALS -/

variable {S : Type} [LinearOrder S] [OrderBot S] [Neg S]

/-- C51 (iALS).  After early stopping the iALS model answers every request like the model after the epoch
with the best validation score. -/
theorem C51_ials (r : Recommender) (u₀ v₀ : Nat → Vec K) (ω : Nat → Oracle T)
    (U : Setup (Trainer K) S) (f : Nat → Trainer K → Except Err (Option S)) (hU : U.evaluator = some f)
    (m m' : Rec (Trainer K) (SavedState K)) (hm : m.bestState = none) (log : List (Event S))
    (h : learnWithOptimizer (ialsOps r u₀ v₀ ω) U m = ((m', log), .ok ())) :
    ∃ k s best t, (k, some s) ∈ validationsOf log ∧
      (∀ k' s', (k', some s') ∈ validationsOf log → s' ≤ s ∧ (k' < k → s' < s)) ∧
      (ialsOps r u₀ v₀ ω).after (k + 1) = .ok best ∧ f k best = .ok (some s) ∧
      m'.learntEpochs = some (k + 1) ∧ m'.trainer = some t ∧ SameAnswers t best := by
  obtain ⟨k, s, st, last, h1, -, h3, h4, h4', h5, -, h7, h8⟩ := C51_best_state _ U f hU m m' hm log h
  obtain ⟨st', hst', hf⟩ := h8 k (some s) h1
  rw [h4] at hst'
  obtain rfl := Except.ok.inj hst'
  refine ⟨k, s, st, _, h1, h3, h4, hf, h5, h7, sameAnswers_of ?_ rfl rfl rfl rfl⟩
  exact (ialsOps_after_cfg _ h4').trans (ialsOps_after_cfg _ h4).symm

/-- C53 (iALS).  An iALS model tuned with early stopping and a model with the same arguments that `learn`s
for the reported number of epochs – with any other positive number of threads and any interleaving – answer
every request alike. -/
theorem C53_ials {ω : Nat → Oracle T} {ω' : Nat → Oracle T'} (hω : ∀ k, (ω k).Complete)
    (hω' : ∀ k, (ω' k).Complete) (hT : 0 < T) (hT' : 0 < T') (r : Recommender) (u₀ v₀ : Nat → Vec K)
    (U : Setup (Trainer K) S) (f : Nat → Trainer K → Except Err (Option S)) (hU : U.evaluator = some f)
    (m m' m₂ : Rec (Trainer K) (SavedState K)) (hm : m.bestState = none) (log : List (Event S))
    (h : learnWithOptimizer (ialsOps r u₀ v₀ ω) U m = ((m', log), .ok ()))
    (he : m'.learntEpochs = some m₂.trainEpochs) :
    ∃ t t', m'.trainer = some t ∧ (learn (S := S) (ialsOps r u₀ v₀ ω') m₂).2 = .ok () ∧
      (learn (S := S) (ialsOps r u₀ v₀ ω') m₂).1.1.trainer = some t' ∧ SameAnswers t t' := by
  obtain ⟨st, last, h1, h2, h3, -, h5⟩ := C53_retrain _ U f hU m m' m₂ hm log h he
  rcases C62_learn (S := S) hω hω' hT hT' r u₀ v₀ m₂ with ⟨tr, h6, h7⟩ | ⟨e, e', h6, -⟩
  · rw [h1] at h6
    have h8 : st = tr := by
      have := congrArg (fun x => x.1.1.trainer) h6
      exact Option.some.inj this
    subst h8
    refine ⟨_, st, h5, by rw [h7], by rw [h7], sameAnswers_of ?_ rfl rfl rfl rfl⟩
    exact (ialsOps_after_cfg _ h3).trans (ialsOps_after_cfg _ h2).symm
  · rw [h1] at h6; cases h6

/-! ## Non-vacuity -/

/-- C62, C51, C53: the example recommender, tuned with two threads by an evaluator that always answers 1;
it and the recommender retrained with three threads exist. -/
example : ∃ (r : Recommender) (ω : Nat → Oracle 2) (ω' : Nat → Oracle 3)
    (m' : Rec (Trainer 3) (SavedState 3)) (log : List (Event (Fin 100))),
    (∀ k, (ω k).Complete) ∧ (∀ k, (ω' k).Complete) ∧
    learnWithOptimizer (ialsOps r (fun u k => u + k.val) (fun i k => 1 + i * k.val) ω)
      ⟨some (fun _ _ => .ok (some 1)), none, 20, 2, 3⟩ (Rec.new 16) = ((m', log), .ok ()) ∧
    ∃ e, m'.learntEpochs = some (Rec.new (σ := Trainer 3) (β := SavedState 3) e).trainEpochs := by
  obtain ⟨ω, hω⟩ := exists_complete_oracle 2 (by norm_num)
  obtain ⟨ω', hω'⟩ := exists_complete_oracle 3 (by norm_num)
  have hX : Spec.Sim.Proper exampleX := exampleValid.proper
  have hval : Valid (Recommender.config ⟨exampleArgs "cholesky", .cholesky, 1⟩)
      (scaleX .log 1 exampleX) := by
    apply validScaled
    · norm_num [Recommender.config]
    · norm_num [Recommender.config, exampleArgs]
    · norm_num
    · exact hX
    · exact exampleValid.nonneg
  have hpu : RegPositive (Recommender.config ⟨exampleArgs "cholesky", .cholesky, 1⟩)
      (scaleX .log 1 exampleX) := by
    refine ⟨by norm_num [Recommender.config], fun row _ => Or.inr ?_⟩
    have : (0 : ℝ) ≤ row.length := Nat.cast_nonneg _
    rw [scaleX_cols]
    norm_num [Recommender.config, exampleArgs, exampleX]
    linarith
  have hpi : RegPositive (Recommender.config ⟨exampleArgs "cholesky", .cholesky, 1⟩)
      (transpose (scaleX .log 1 exampleX)) := by
    refine ⟨by norm_num [Recommender.config], fun row _ => Or.inr ?_⟩
    have : (0 : ℝ) ≤ row.length := Nat.cast_nonneg _
    have h : (transpose (scaleX .log 1 exampleX)).cols = 2 := rfl
    rw [h]
    norm_num [Recommender.config, exampleArgs]
    linarith
  have hafter := C62_training_succeeds (T := 2) (K := 3) (ω := fun _ => ω) (fun _ => hω) (by norm_num)
    ⟨exampleArgs "cholesky", .cholesky, 1⟩ rfl rfl (logDefined_of_nonneg _ (by norm_num [exampleArgs]) (by
      intro row hrow e he
      simp only [exampleArgs, exampleX, List.mem_cons, List.not_mem_nil, or_false] at hrow
      rcases hrow with rfl | rfl
      · simp only [List.mem_cons, List.not_mem_nil, or_false] at he
        rcases he with rfl | rfl <;> norm_num
      · simp at he)) hval hpu hpi (fun u k => u + k.val)
    (fun i k => 1 + i * k.val)
  set T₀ := ialsOps (K := 3) ⟨exampleArgs "cholesky", .cholesky, 1⟩ (fun u k => u + k.val)
    (fun i k => 1 + i * k.val) (fun _ => ω) with hT₀
  have hret := (C51_returns_iff T₀ (⟨some (fun _ _ => .ok (some 1)), none, 20, 2, 3⟩ :
    Setup (Trainer 3) (Fin 100)) _ rfl rfl (by norm_num) (fun n _ => hafter n) (fun _ _ _ => ⟨_, rfl⟩)
    (Rec.new 16) rfl).2.mpr ⟨1, le_refl _, by norm_num, by norm_num, by
      obtain ⟨s, hs⟩ := hafter 2
      refine ⟨1, ?_, by decide⟩
      unfold Spec.EarlyStop.validationScore
      rw [show Spec.EarlyStop.stateAfter T₀.create T₀.runEpoch (1 * 2) = .ok s from hs]⟩
  cases hl : learnWithOptimizer T₀ (⟨some (fun _ _ => .ok (some 1)), none, 20, 2, 3⟩ :
    Setup (Trainer 3) (Fin 100)) (Rec.new 16) with
  | mk p o =>
    rw [hl] at hret
    cases p with
    | mk m' log =>
      simp only at hret
      subst hret
      obtain ⟨k, s, st, last, -, -, -, -, -, h5, -⟩ := C51_best_state T₀ _ _ rfl _ _ rfl _ hl
      exact ⟨_, fun _ => ω, fun _ => ω', m', log, fun _ => hω, fun _ => hω', hl, k + 1, h5⟩

end Irspack.Ials
