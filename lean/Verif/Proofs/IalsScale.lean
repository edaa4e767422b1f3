import Verif.Model.IalsRecommender
import Mathlib.Tactic.Linarith

/-! # The scaling of the interactions: where its logarithms are defined -/

namespace Irspack.Ials

variable {K T : Nat}

theorem scaled_of {s : Scaling} {e : ℝ} {X : CSR ℝ} (h : LogDefined s e X) : scaled s e X = .ok (scaleX s e X) := by
  classical
  exact if_pos h

theorem scaled_not {s : Scaling} {e : ℝ} {X : CSR ℝ} (h : ¬ LogDefined s e X) : scaled s e X = .error .nonFinite := by
  classical
  exact if_neg h

/-- for a positive `epsilon` and non-negative values all is defined -/
theorem logDefined_of_nonneg (s : Scaling) {e : ℝ} (he : 0 < e) {X : CSR ℝ}
    (hX : ∀ row ∈ X.rows, ∀ c ∈ row, (0 : ℝ) ≤ c.2) : LogDefined s e X := by
  intro _ row hrow c hc
  have := div_nonneg (hX row hrow c hc) he.le
  exact ⟨he.ne', by linarith⟩

section
variable {r : Recommender} {tr : Trainer K} {ω : Oracle T} {X : CSR ℝ} {E : Factor K}

theorem userEmbedding_eq (h : LogDefined r.args.scaling r.args.epsilon X) (feat : Option Features) :
    r.computeUserEmbedding ω tr X feat = (match feat with
      | none => tr.transformUser ω r.predictionSolver (scaleX r.args.scaling r.args.epsilon X)
      | some feat => tr.transformUserWithFeature ω r.predictionSolver
          (scaleX r.args.scaling r.args.epsilon X) feat) := by
  unfold Recommender.computeUserEmbedding
  rw [scaled_of h]
  cases feat <;> rfl

theorem itemEmbedding_eq (h : LogDefined r.args.scaling r.args.epsilon X) (feat : Option Features) :
    r.computeItemEmbedding ω tr X feat = (match feat with
      | none => tr.transformItem ω r.predictionSolver (scaleX r.args.scaling r.args.epsilon X)
      | some feat => tr.transformItemWithFeature ω r.predictionSolver
          (scaleX r.args.scaling r.args.epsilon X) feat) := by
  unfold Recommender.computeItemEmbedding
  rw [scaled_of h]
  cases feat <;> rfl

theorem userEmbedding_ok {feat : Option Features} (h : r.computeUserEmbedding ω tr X feat = .ok E) :
    LogDefined r.args.scaling r.args.epsilon X ∧ (match feat with
      | none => tr.transformUser ω r.predictionSolver (scaleX r.args.scaling r.args.epsilon X)
      | some feat => tr.transformUserWithFeature ω r.predictionSolver
          (scaleX r.args.scaling r.args.epsilon X) feat) = .ok E := by
  by_cases hl : LogDefined r.args.scaling r.args.epsilon X
  · exact ⟨hl, (userEmbedding_eq hl feat).symm.trans h⟩
  · unfold Recommender.computeUserEmbedding at h
    rw [scaled_not hl] at h
    cases h

theorem itemEmbedding_ok {feat : Option Features} (h : r.computeItemEmbedding ω tr X feat = .ok E) :
    LogDefined r.args.scaling r.args.epsilon X ∧ (match feat with
      | none => tr.transformItem ω r.predictionSolver (scaleX r.args.scaling r.args.epsilon X)
      | some feat => tr.transformItemWithFeature ω r.predictionSolver
          (scaleX r.args.scaling r.args.epsilon X) feat) = .ok E := by
  by_cases hl : LogDefined r.args.scaling r.args.epsilon X
  · exact ⟨hl, (itemEmbedding_eq hl feat).symm.trans h⟩
  · unfold Recommender.computeItemEmbedding at h
    rw [scaled_not hl] at h
    cases h

theorem userEmbedding_none (h : r.computeUserEmbedding ω tr X none = .ok E) :
    tr.transformUser ω r.predictionSolver (scaleX r.args.scaling r.args.epsilon X) = .ok E :=
  (userEmbedding_ok h).2

theorem userEmbedding_some {feat : Features} (h : r.computeUserEmbedding ω tr X (some feat) = .ok E) :
    tr.transformUserWithFeature ω r.predictionSolver (scaleX r.args.scaling r.args.epsilon X) feat = .ok E :=
  (userEmbedding_ok h).2

theorem itemEmbedding_none (h : r.computeItemEmbedding ω tr X none = .ok E) :
    tr.transformItem ω r.predictionSolver (scaleX r.args.scaling r.args.epsilon X) = .ok E :=
  (itemEmbedding_ok h).2

theorem itemEmbedding_some {feat : Features} (h : r.computeItemEmbedding ω tr X (some feat) = .ok E) :
    tr.transformItemWithFeature ω r.predictionSolver (scaleX r.args.scaling r.args.epsilon X) feat = .ok E :=
  (itemEmbedding_ok h).2

end

theorem logDefined_empty (s : Scaling) (e : ℝ) (rows cols : Nat) : LogDefined s e (emptyCSR rows cols) := by
  intro _ row hrow c hc
  rw [List.eq_of_mem_replicate hrow] at hc
  cases hc

theorem createTrainer_eq {r : Recommender} {u₀ v₀ : Nat → Vec K}
    (h : LogDefined r.args.scaling r.args.epsilon r.args.X) :
    r.createTrainer u₀ v₀ = r.trainerOn (scaleX r.args.scaling r.args.epsilon r.args.X) u₀ v₀ := by
  unfold Recommender.createTrainer
  rw [scaled_of h]

theorem createTrainer_ok {r : Recommender} {u₀ v₀ : Nat → Vec K} {tr : Trainer K}
    (h : r.createTrainer u₀ v₀ = .ok tr) :
    r.trainerOn (scaleX r.args.scaling r.args.epsilon r.args.X) u₀ v₀ = .ok tr := by
  by_cases hl : LogDefined r.args.scaling r.args.epsilon r.args.X
  · exact (createTrainer_eq hl).symm.trans h
  · unfold Recommender.createTrainer at h
    rw [scaled_not hl] at h
    cases h

end Irspack.Ials
