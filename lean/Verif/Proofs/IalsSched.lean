import Verif.Proofs.IalsScale
import Verif.Proofs.IalsFeature
import Verif.Model.IalsEarlyStop
import Verif.Proofs.EarlyStop
import Verif.Spec.Outcome

/-! # The result of iALS training does not depend on threads and interleavings -/

namespace Irspack

theorem Agree.refl {A : Type} (a : Except Err A) : Agree a a := by
  cases a with
  | ok x => exact .inl ⟨x, rfl, rfl⟩
  | error e => exact .inr ⟨e, e, rfl, rfl⟩

theorem Agree.bind {A B : Type} {a b : Except Err A} (h : Agree a b) {f g : A → Except Err B}
    (hfg : ∀ x, Agree (f x) (g x)) : Agree (a >>= f) (b >>= g) := by
  rcases h with ⟨x, rfl, rfl⟩ | ⟨e, e', rfl, rfl⟩
  · exact hfg x
  · exact .inr ⟨e, e', rfl, rfl⟩

theorem Agree.map {A B : Type} {a b : Except Err A} (h : Agree a b) (f : A → B) :
    Agree (a.map f) (b.map f) := by
  rcases h with ⟨x, rfl, rfl⟩ | ⟨e, e', rfl, rfl⟩
  · exact .inl ⟨_, rfl, rfl⟩
  · exact .inr ⟨e, e', rfl, rfl⟩

theorem Agree.foldlM {A B : Type} (l : List B) {f g : A → B → Except Err A}
    (h : ∀ a, ∀ b ∈ l, Agree (f a b) (g a b)) : ∀ a, Agree (l.foldlM f a) (l.foldlM g a) := by
  induction l with
  | nil => intro a; exact Agree.refl _
  | cons b l ih =>
    intro a
    rw [List.foldlM_cons, List.foldlM_cons]
    exact (h a b (by simp)).bind (fun x => ih (fun a b hb => h a b (by simp [hb])) x)

theorem Agree.trans {A : Type} {a b c : Except Err A} (h : Agree a b) (h' : Agree b c) : Agree a c := by
  rcases h with ⟨x, rfl, rfl⟩ | ⟨e, e', rfl, rfl⟩
  · rcases h' with ⟨y, hy, rfl⟩ | ⟨e, e', he, rfl⟩
    · cases hy; exact .inl ⟨x, rfl, rfl⟩
    · cases he
  · rcases h' with ⟨y, hy, rfl⟩ | ⟨e₁, e₂, he, rfl⟩
    · cases hy
    · exact .inr ⟨e, e₂, rfl, rfl⟩

theorem Agree.ok_iff {A : Type} {a b : Except Err A} (h : Agree a b) (x : A) : a = .ok x ↔ b = .ok x := by
  rcases h with ⟨y, rfl, rfl⟩ | ⟨e, e', rfl, rfl⟩
  · rfl
  · constructor <;> intro h <;> cases h

variable {T T' : Nat} {A : Type}

theorem parRows_agree {ω : Oracle T} {ω' : Oracle T'} (hω : ω.Complete) (hω' : ω'.Complete) (hT : 0 < T)
    (hT' : 0 < T') (n c c' : Nat) (hc : 0 < c) (hc' : 0 < c') (f : Nat → A → Except Err A)
    (m : Nat → A) : Agree (parRows ω n c f m) (parRows ω' n c' f m) := by
  rcases parRows_cases hω hT n c hc f m with ⟨m₁, h1, h2⟩ | ⟨e, r, h1, h2, h3⟩
  · rcases parRows_cases hω' hT' n c' hc' f m with ⟨m₂, h1', h2'⟩ | ⟨e, r, h1', h2', h3'⟩
    · have : m₁ = m₂ := by
        funext r
        by_cases hr : r < n
        · have := (h2.1 r hr).symm.trans (h2'.1 r hr)
          exact Except.ok.inj this
        · rw [h2.2 r (by omega), h2'.2 r (by omega)]
      rw [h1, h1', this]
      exact .inl ⟨m₂, rfl, rfl⟩
    · rw [h2.1 r h2'] at h3'; cases h3'
  · obtain ⟨e', he'⟩ := parRows_throws hω' hT' hc' h2 h3
    exact .inr ⟨e, e', h1, he'⟩

namespace Ials

variable {K : Nat} {ω : Oracle T} {ω' : Oracle T'}

theorem prepareP_agree (hω : ω.Complete) (hω' : ω'.Complete) (hT : 0 < T) (hT' : 0 < T') (cfg : Config)
    (V : Factor K) : Agree (prepareP ω cfg V) (prepareP ω' cfg V) := by
  rw [prepareP_eq hω hT, prepareP_eq hω' hT']
  exact Agree.refl _

theorem stepCg_agree (hω : ω.Complete) (hω' : ω'.Complete) (hT : 0 < T) (hT' : 0 < T') (cfg : Config)
    (sc : SolverConfig) (P : Matrix (Fin K) (Fin K) ℝ) (X : CSR ℝ) (V : Factor K)
    (prior : Option (Factor K)) (F : Factor K) :
    Agree (stepCg ω cfg sc P X V prior F) (stepCg ω' cfg sc P X V prior F) := by
  unfold stepCg
  split
  · exact Agree.refl _
  · exact (parRows_agree hω hω' hT hT' _ _ _ Nat.one_pos Nat.one_pos _ _).map _

theorem solverStep_agree (hω : ω.Complete) (hω' : ω'.Complete) (hT : 0 < T) (hT' : 0 < T') (cfg : Config)
    (sc : SolverConfig) (P : Matrix (Fin K) (Fin K) ℝ) (X : CSR ℝ) (V F : Factor K) :
    Agree (solverStep ω cfg sc P X V F) (solverStep ω' cfg sc P X V F) := by
  unfold solverStep
  cases sc.solverType with
  | cg => exact stepCg_agree hω hω' hT hT' cfg sc P X V none F
  | cholesky =>
    exact (parRows_agree hω hω' hT hT' _ _ _ Nat.one_pos Nat.one_pos _ _).map _
  | ialspp =>
    unfold stepIalspp
    refine Agree.foldlM _ (fun G it _ => ?_) F
    split
    · unfold ialsppIteration prediction
      refine Agree.bind (parRows_agree ((hω.at it).at 0) ((hω'.at it).at 0) hT hT' _ _ _ Nat.one_pos
        Nat.one_pos _ _) (fun preds => ?_)
      refine Agree.bind (Agree.foldlM _ (fun s b _ => ?_) _) (fun s => Agree.refl _)
      exact (parRows_agree (((hω.at it).at 1).at b.1) (((hω'.at it).at 1).at b.1) hT hT' _ _ _ Nat.one_pos
        Nat.one_pos _ _).map _
    · unfold icdIteration prediction
      refine Agree.bind (parRows_agree ((hω.at it).at 0) ((hω'.at it).at 0) hT hT' _ _ _ Nat.one_pos
        Nat.one_pos _ _) (fun preds => ?_)
      refine Agree.bind (Agree.foldlM _ (fun s d _ => ?_) _) (fun s => Agree.refl _)
      exact (parRows_agree (((hω.at it).at 1).at d.val) (((hω'.at it).at 1).at d.val) hT hT' _ _ _
        Nat.one_pos Nat.one_pos _ _).map _

theorem solverStepPrior_agree (hω : ω.Complete) (hω' : ω'.Complete) (hT : 0 < T) (hT' : 0 < T')
    (cfg : Config) (sc : SolverConfig) (P : Matrix (Fin K) (Fin K) ℝ) (X : CSR ℝ) (V prior F : Factor K) :
    Agree (solverStepPrior ω cfg sc P X V prior F) (solverStepPrior ω' cfg sc P X V prior F) := by
  unfold solverStepPrior
  split
  · exact Agree.refl _
  · cases sc.solverType with
    | cg => exact stepCg_agree hω hω' hT hT' cfg sc P X V (some prior) F
    | cholesky =>
      simp only
      unfold stepCholeskyPrior
      split
      · exact Agree.refl _
      · exact (parRows_agree hω hω' hT hT' _ _ _ Nat.one_pos Nat.one_pos _ _).map _
    | ialspp => exact Agree.refl _

theorem updateFeatureWeight_agree (hω : ω.Complete) (hω' : ω'.Complete) (hT : 0 < T) (hT' : 0 < T')
    (cfg : Config) (feat : Features) (F : Factor K) (W : Weight K) (lam : ℝ) (X : CSR ℝ) (other : Nat)
    (cache : Option (Cache feat.cols)) :
    Agree (updateFeatureWeight ω cfg feat F W lam X other cache)
      (updateFeatureWeight ω' cfg feat F W lam X other cache) := by
  unfold updateFeatureWeight
  split
  · exact Agree.refl _
  · refine Agree.bind (Agree.refl _) (fun c => Agree.bind ?_ (fun W' => Agree.refl _))
    unfold solveFeatureWeight
    by_cases hK : K = 0
    · simp only [if_pos hK, if_neg (show ¬ T = 0 by omega), if_neg (show ¬ T' = 0 by omega)]
      exact Agree.refl _
    · simp only [if_neg hK, if_neg (show ¬ T = 0 by omega), if_neg (show ¬ T' = 0 by omega)]
      have hpos : ∀ t, 0 < t → 0 < (K + min t K - 1) / min t K := by
        intro t ht
        have h1 : 0 < min t K := by omega
        exact Nat.div_pos (by omega) h1
      exact (parRows_agree hω hω' hT hT' _ _ _ (hpos T hT) (hpos T' hT') _ _).map _

theorem step_agree (hω : ω.Complete) (hω' : ω'.Complete) (hT : 0 < T) (hT' : 0 < T') (sc : SolverConfig)
    (tr : Trainer K) : Agree (tr.step ω sc) (tr.step ω' sc) := by
  unfold Trainer.step
  split
  · exact Agree.refl _
  · refine Agree.bind ?_ (fun tr₁ => Agree.bind ?_ (fun tr₂ => Agree.refl _))
    · unfold Trainer.stepUser
      refine Agree.bind (prepareP_agree ((hω.at 0).at 0) ((hω'.at 0).at 0) hT hT' _ _) (fun P => ?_)
      split
      · refine Agree.bind (solverStepPrior_agree ((hω.at 0).at 1) ((hω'.at 0).at 1) hT hT' _ _ _ _ _ _ _)
          (fun user => Agree.bind (updateFeatureWeight_agree ((hω.at 0).at 2) ((hω'.at 0).at 2) hT hT'
            _ _ _ _ _ _ _ _) (fun wc => Agree.refl _))
      · exact Agree.bind (solverStep_agree ((hω.at 0).at 1) ((hω'.at 0).at 1) hT hT' _ _ _ _ _ _)
          (fun user => Agree.refl _)
    · unfold Trainer.stepItem
      refine Agree.bind (prepareP_agree ((hω.at 1).at 0) ((hω'.at 1).at 0) hT hT' _ _) (fun P => ?_)
      split
      · refine Agree.bind (solverStepPrior_agree ((hω.at 1).at 1) ((hω'.at 1).at 1) hT hT' _ _ _ _ _ _ _)
          (fun user => Agree.bind (updateFeatureWeight_agree ((hω.at 1).at 2) ((hω'.at 1).at 2) hT hT'
            _ _ _ _ _ _ _ _) (fun wc => Agree.refl _))
      · exact Agree.bind (solverStep_agree ((hω.at 1).at 1) ((hω'.at 1).at 1) hT hT' _ _ _ _ _ _)
          (fun user => Agree.refl _)

theorem xToVector_agree (hω : ω.Complete) (hω' : ω'.Complete) (hT : 0 < T) (hT' : 0 < T') (cfg : Config)
    (sc : SolverConfig) (P : Matrix (Fin K) (Fin K) ℝ) (X : CSR ℝ) (V : Factor K) :
    Agree (xToVector ω cfg sc P X V) (xToVector ω' cfg sc P X V) := by
  unfold xToVector
  split
  · exact Agree.refl _
  · exact solverStep_agree hω hω' hT hT' _ _ _ _ _ _

theorem xToVectorPrior_agree (hω : ω.Complete) (hω' : ω'.Complete) (hT : 0 < T) (hT' : 0 < T')
    (cfg : Config) (sc : SolverConfig) (P : Matrix (Fin K) (Fin K) ℝ) (X : CSR ℝ) (V prior : Factor K) :
    Agree (xToVectorPrior ω cfg sc P X V prior) (xToVectorPrior ω' cfg sc P X V prior) := by
  unfold xToVectorPrior
  split
  · exact Agree.refl _
  · split
    · exact Agree.refl _
    · exact solverStepPrior_agree hω hω' hT hT' _ _ _ _ _ _ _

theorem transformUser_agree (hω : ω.Complete) (hω' : ω'.Complete) (hT : 0 < T) (hT' : 0 < T')
    (sc : SolverConfig) (tr : Trainer K) (X : CSR ℝ) :
    Agree (tr.transformUser ω sc X) (tr.transformUser ω' sc X) :=
  Agree.bind (prepareP_agree (hω.at 0) (hω'.at 0) hT hT' _ _)
    (fun _ => xToVector_agree (hω.at 1) (hω'.at 1) hT hT' _ _ _ _ _)

theorem transformItem_agree (hω : ω.Complete) (hω' : ω'.Complete) (hT : 0 < T) (hT' : 0 < T')
    (sc : SolverConfig) (tr : Trainer K) (X : CSR ℝ) :
    Agree (tr.transformItem ω sc X) (tr.transformItem ω' sc X) :=
  Agree.bind (prepareP_agree (hω.at 0) (hω'.at 0) hT hT' _ _)
    (fun _ => xToVector_agree (hω.at 1) (hω'.at 1) hT hT' _ _ _ _ _)

theorem transformUserWithFeature_agree (hω : ω.Complete) (hω' : ω'.Complete) (hT : 0 < T) (hT' : 0 < T')
    (sc : SolverConfig) (tr : Trainer K) (X : CSR ℝ) (feat : Features) :
    Agree (tr.transformUserWithFeature ω sc X feat) (tr.transformUserWithFeature ω' sc X feat) :=
  Agree.bind (prepareP_agree (hω.at 0) (hω'.at 0) hT hT' _ _) (fun _ => Agree.bind (Agree.refl _)
    (fun _ => xToVectorPrior_agree (hω.at 1) (hω'.at 1) hT hT' _ _ _ _ _ _))

theorem transformItemWithFeature_agree (hω : ω.Complete) (hω' : ω'.Complete) (hT : 0 < T) (hT' : 0 < T')
    (sc : SolverConfig) (tr : Trainer K) (X : CSR ℝ) (feat : Features) :
    Agree (tr.transformItemWithFeature ω sc X feat) (tr.transformItemWithFeature ω' sc X feat) :=
  Agree.bind (prepareP_agree (hω.at 0) (hω'.at 0) hT hT' _ _) (fun _ => Agree.bind (Agree.refl _)
    (fun _ => xToVectorPrior_agree (hω.at 1) (hω'.at 1) hT hT' _ _ _ _ _ _))

theorem scoreChunk_pos (T n : Nat) : 0 < scoreChunk T n := by unfold scoreChunk; omega

theorem userScores_agree (hω : ω.Complete) (hω' : ω'.Complete) (hT : 0 < T) (hT' : 0 < T')
    (tr : Trainer K) (b e : Nat) : Agree (tr.userScores ω b e) (tr.userScores ω' b e) := by
  unfold Trainer.userScores
  simp only [if_neg (show ¬ T = 0 by omega), if_neg (show ¬ T' = 0 by omega)]
  split
  · exact Agree.refl _
  · split
    · exact Agree.refl _
    · exact (parRows_agree hω hω' hT hT' _ _ _ (scoreChunk_pos _ _) (scoreChunk_pos _ _) _ _).map _

theorem stepUser_cfg {sc : SolverConfig} {tr tr' : Trainer K} (h : tr.stepUser ω sc = .ok tr') :
    tr'.cfg = tr.cfg := by
  unfold Trainer.stepUser at h
  obtain ⟨P, -, h⟩ := bind_ok h
  split at h
  · obtain ⟨user, -, h⟩ := bind_ok h
    obtain ⟨wc, -, h⟩ := bind_ok h
    rw [← Except.ok.inj h]
  · obtain ⟨user, -, h⟩ := bind_ok h
    rw [← Except.ok.inj h]

theorem stepItem_cfg {sc : SolverConfig} {tr tr' : Trainer K} (h : tr.stepItem ω sc = .ok tr') :
    tr'.cfg = tr.cfg := by
  unfold Trainer.stepItem at h
  obtain ⟨P, -, h⟩ := bind_ok h
  split at h
  · obtain ⟨user, -, h⟩ := bind_ok h
    obtain ⟨wc, -, h⟩ := bind_ok h
    rw [← Except.ok.inj h]
  · obtain ⟨user, -, h⟩ := bind_ok h
    rw [← Except.ok.inj h]

theorem step_cfg {sc : SolverConfig} {tr tr' : Trainer K} (h : tr.step ω sc = .ok tr') :
    tr'.cfg = tr.cfg := by
  unfold Trainer.step at h
  split at h
  · cases h
  · obtain ⟨tr₁, h1, h⟩ := bind_ok h
    obtain ⟨tr₂, h2, h⟩ := bind_ok h
    rw [← Except.ok.inj h]
    exact (stepItem_cfg h2).trans (stepUser_cfg h1)

theorem createTrainer_cfg {r : Recommender} {u₀ v₀ : Nat → Vec K} {tr : Trainer K}
    (h : r.createTrainer u₀ v₀ = .ok tr) : tr.cfg = r.config := by
  have h := createTrainer_ok h
  unfold Recommender.trainerOn at h
  split at h
  · rw [← Except.ok.inj h]; rfl
  · exact (createWithFeatures_good _ _ _ _ _ _ _ h).2.1

open EarlyStop in
theorem ialsOps_after_cfg {r : Recommender} {u₀ v₀ : Nat → Vec K} {ω : Nat → Oracle T} (n : Nat)
    {tr : Trainer K} (h : (ialsOps r u₀ v₀ ω).after n = .ok tr) : tr.cfg = r.config := by
  induction n generalizing tr with
  | zero => exact createTrainer_cfg h
  | succ n ih =>
    unfold TrainerOps.after Spec.EarlyStop.stateAfter at h
    cases hn : Spec.EarlyStop.stateAfter (ialsOps r u₀ v₀ ω).create (ialsOps r u₀ v₀ ω).runEpoch n with
    | error e => rw [hn] at h; simp at h
    | ok s =>
      rw [hn] at h
      exact (step_cfg h).trans (ih hn)

open EarlyStop in
theorem ialsOps_after_agree {r : Recommender} {u₀ v₀ : Nat → Vec K} {ω : Nat → Oracle T}
    {ω' : Nat → Oracle T'} (hω : ∀ k, (ω k).Complete) (hω' : ∀ k, (ω' k).Complete) (hT : 0 < T)
    (hT' : 0 < T') (n : Nat) : Agree ((ialsOps r u₀ v₀ ω).after n) ((ialsOps r u₀ v₀ ω').after n) := by
  unfold TrainerOps.after
  induction n with
  | zero => exact Agree.refl _
  | succ n ih =>
    unfold Spec.EarlyStop.stateAfter
    rcases ih with ⟨x, h1, h2⟩ | ⟨e, e', h1, h2⟩
    · rw [h1, h2]
      exact step_agree (hω n) (hω' n) hT hT' _ _
    · rw [h1, h2]
      exact .inr ⟨e, e', rfl, rfl⟩

end Ials

end Irspack
