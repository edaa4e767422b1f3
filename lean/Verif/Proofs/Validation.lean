import Verif.Model.Validation
import Verif.Proofs.EarlyStop

/-! # Two runs of `learn_with_optimizer` side by side -/

namespace Irspack.EarlyStop

variable {σ σ' β S : Type} [LinearOrder S] [OrderBot S] [Neg S]

/-- what a run keeps besides the trainer -/
structure Kept (β S : Type) where
  trainEpochs : Nat
  bestState : Option β
  learntEpochs : Option Nat
  best : S
  degradation : Nat
  log : List (Event S)

/-- the loop's variables with trainer `s` -/
def Kept.loop (q : Kept β S) (s : σ) : Loop σ β S :=
  ⟨⟨q.trainEpochs, some s, q.bestState, q.learntEpochs⟩, q.best, q.degradation, q.log⟩

theorem reportTrial_kept (U : Setup σ S) (U' : Setup σ' S) (hp : U.shouldPrune = U'.shouldPrune) (k : Nat)
    (score : Option S) (q : Kept β S) (s : σ) (s' : σ') :
    ∃ (q' : Kept β S) (fl : Flow), reportTrial U k score (q.loop s) = (q'.loop s, fl) ∧
      reportTrial U' k score (q.loop s') = (q'.loop s', fl) := by
  unfold reportTrial
  rw [← hp]
  cases U.shouldPrune with
  | none => exact ⟨q, .next, rfl, rfl⟩
  | some prune =>
    by_cases hpr : prune (q.log ++ [Event.report (score.map (fun s => -s)) k]) = true
    · refine ⟨{ q with log := q.log ++ [Event.report (score.map (fun s => -s)) k] }, .raise .trialPruned, ?_, ?_⟩
      · exact if_pos (c := prune (q.log ++ [Event.report (score.map (fun s => -s)) k]) = true) hpr
      · exact if_pos (c := prune (q.log ++ [Event.report (score.map (fun s => -s)) k]) = true) hpr
    · refine ⟨{ q with log := q.log ++ [Event.report (score.map (fun s => -s)) k] }, .next, ?_, ?_⟩
      · exact if_neg (c := prune (q.log ++ [Event.report (score.map (fun s => -s)) k]) = true) hpr
      · exact if_neg (c := prune (q.log ++ [Event.report (score.map (fun s => -s)) k]) = true) hpr

theorem judge_kept (T : TrainerOps σ β) (T' : TrainerOps σ' β) (U : Setup σ S) (U' : Setup σ' S)
    (hp : U.shouldPrune = U'.shouldPrune) (hd : U.degradationMax = U'.degradationMax) (k : Nat)
    (score : Option S) (q : Kept β S) (s : σ) (s' : σ') (hs : T.save s = T'.save s') :
    ∃ (q' : Kept β S) (fl : Flow), judge T U k score (q.loop s) = (q'.loop s, fl) ∧
      judge T' U' k score (q.loop s') = (q'.loop s', fl) := by
  unfold judge
  by_cases he : exceeds score q.best
  · have e1 : exceeds score (q.loop s).best := he
    have e2 : exceeds score (q.loop s').best := he
    rw [if_pos e1, if_pos e2]
    obtain ⟨q', fl, h1, h2⟩ := reportTrial_kept U U' hp k score
      ⟨q.trainEpochs, some (T.save s), some (k + 1), score.getD ⊥, 0, q.log⟩ s s'
    refine ⟨q', fl, h1, ?_⟩
    rw [hs] at h2
    exact h2
  · have e1 : ¬ exceeds score (q.loop s).best = true := he
    have e2 : ¬ exceeds score (q.loop s').best = true := he
    rw [if_neg e1, if_neg e2]
    have hd' : (q.loop s').degradation = (q.loop s).degradation := rfl
    by_cases hdeg : q.degradation + 1 ≥ U.degradationMax
    · have d1 : ({ q.loop s with degradation := (q.loop s).degradation + 1 } : Loop σ β S).degradation ≥
        U.degradationMax := hdeg
      have d2 : ({ q.loop s' with degradation := (q.loop s').degradation + 1 } : Loop σ' β S).degradation ≥
        U'.degradationMax := hd ▸ hdeg
      simp only [if_pos d1, if_pos d2]
      exact ⟨{ q with degradation := q.degradation + 1 }, .stop, rfl, rfl⟩
    · have d1 : ¬ ({ q.loop s with degradation := (q.loop s).degradation + 1 } : Loop σ β S).degradation ≥
        U.degradationMax := hdeg
      have d2 : ¬ ({ q.loop s' with degradation := (q.loop s').degradation + 1 } : Loop σ' β S).degradation ≥
        U'.degradationMax := hd ▸ hdeg
      simp only [if_neg d1, if_neg d2]
      exact reportTrial_kept U U' hp k score { q with degradation := q.degradation + 1 } s s'

/-- Two trainers and evaluators that keep step: `before k` relates their states when epoch `k` begins,
`after k` when it has been run. -/
structure KeepStep (T : TrainerOps σ β) (T' : TrainerOps σ' β) (U : WatchedSetup σ S)
    (U' : WatchedSetup σ' S) (before after : Nat → σ → σ' → Prop) : Prop where
  prune : U.shouldPrune = U'.shouldPrune
  maxEpoch : U.maxEpoch = U'.maxEpoch
  validateEpoch : U.validateEpoch = U'.validateEpoch
  degradationMax : U.degradationMax = U'.degradationMax
  create : (∃ e, T.create = .error e ∧ T'.create = .error e) ∨
    ∃ s s', T.create = .ok s ∧ T'.create = .ok s' ∧ before 0 s s'
  epoch : ∀ k s s', before k s s' → (∃ e, T.runEpoch k s = .error e ∧ T'.runEpoch k s' = .error e) ∨
    ∃ t t', T.runEpoch k s = .ok t ∧ T'.runEpoch k s' = .ok t' ∧ after k t t'
  skip : ∀ k s s', after k s s' → (k + 1) % U.validateEpoch ≠ 0 → before (k + 1) s s'
  validate : ∀ k s s', after k s s' → (k + 1) % U.validateEpoch = 0 →
    (U.evaluator k s).1 = (U'.evaluator k s').1 ∧ ∀ sc, (U.evaluator k s).1 = .ok sc →
      before (k + 1) (U.evaluator k s).2 (U'.evaluator k s').2 ∧
      T.save (U.evaluator k s).2 = T'.save (U'.evaluator k s').2

variable {T : TrainerOps σ β} {T' : TrainerOps σ' β} {U : WatchedSetup σ S} {U' : WatchedSetup σ' S}
  {before after : Nat → σ → σ' → Prop}

theorem watchedBody_kept (h : KeepStep T T' U U' before after) (k : Nat) (q : Kept β S) (s : σ) (s' : σ')
    (hb : before k s s') :
    ∃ (q' : Kept β S) (fl : Flow) (t : σ) (t' : σ'), watchedBody T U k (q.loop s) = (q'.loop t, fl) ∧
      watchedBody T' U' k (q.loop s') = (q'.loop t', fl) ∧ (fl = .next → before (k + 1) t t') := by
  unfold watchedBody
  rcases h.epoch k s s' hb with ⟨e, h1, h2⟩ | ⟨t, t', h1, h2, ha⟩
  · refine ⟨q, .raise e, s, s', ?_, ?_, by simp⟩
    · simp only [Kept.loop, Rec.runEpoch, h1]
    · simp only [Kept.loop, Rec.runEpoch, h2]
  · have r1 : (q.loop s).model.runEpoch T k = .ok { (q.loop s).model with trainer := some t } := by
      simp only [Kept.loop, Rec.runEpoch, h1]
    have r2 : (q.loop s').model.runEpoch T' k = .ok { (q.loop s').model with trainer := some t' } := by
      simp only [Kept.loop, Rec.runEpoch, h2]
    rw [r1, r2]
    simp only
    rw [← h.validateEpoch]
    by_cases hv : U.validateEpoch = 0
    · simp only [if_pos hv]
      exact ⟨{ q with log := q.log ++ [Event.epoch k] }, .raise .zeroDivisionError, t, t', rfl, rfl, by simp⟩
    simp only [if_neg hv]
    by_cases hk : (k + 1) % U.validateEpoch = 0
    · simp only [hk, ne_eq, not_true_eq_false, if_false]
      obtain ⟨hsc, hok⟩ := h.validate k t t' ha hk
      rw [← hsc]
      cases hx : (U.evaluator k t).1 with
      | error e =>
        exact ⟨{ q with log := q.log ++ [Event.epoch k] }, .raise e, _, _, rfl, rfl, by simp⟩
      | ok score =>
        obtain ⟨hb', hsave⟩ := hok score hx
        obtain ⟨q', fl, j1, j2⟩ := judge_kept T T' U.quiet U'.quiet h.prune h.degradationMax k score
          { q with log := (q.log ++ [Event.epoch k]) ++ [Event.validate k score] } (U.evaluator k t).2
          (U'.evaluator k t').2 hsave
        exact ⟨q', fl, _, _, j1, j2, fun _ => hb'⟩
    · simp only [ne_eq, hk, not_false_eq_true, if_true]
      exact ⟨{ q with log := q.log ++ [Event.epoch k] }, .next, t, t', rfl, rfl, fun _ => h.skip k t t' ha hk⟩

theorem watchedLoop_kept (h : KeepStep T T' U U' before after) (left : Nat) :
    ∀ (k : Nat) (q : Kept β S) (s : σ) (s' : σ'), before k s s' →
    ∃ (q' : Kept β S) (o : Except Err Unit) (t : σ) (t' : σ'), watchedLoop T U left k (q.loop s) = (q'.loop t, o) ∧
      watchedLoop T' U' left k (q.loop s') = (q'.loop t', o) := by
  induction left with
  | zero => intro k q s s' _; exact ⟨q, .ok (), s, s', rfl, rfl⟩
  | succ left ih =>
    intro k q s s' hb
    obtain ⟨q', fl, t, t', h1, h2, hn⟩ := watchedBody_kept h k q s s' hb
    simp only [watchedLoop, h1, h2]
    cases fl with
    | next => exact ih (k + 1) q' t t' (hn rfl)
    | stop => exact ⟨q', .ok (), t, t', rfl, rfl⟩
    | raise e => exact ⟨q', .error e, t, t', rfl, rfl⟩

/-- Two runs that keep step make the same calls, have the same outcome and select the same epoch and the
same saved state. -/
theorem watchedLearn_kept (h : KeepStep T T' U U' before after) (r : Rec σ β) (r₀ : Rec σ' β)
    (hn : r.trainEpochs = r₀.trainEpochs) (hb : r.bestState = r₀.bestState)
    (hl : r.learntEpochs = r₀.learntEpochs) :
    (watchedLearn T U r).1.2 = (watchedLearn T' U' r₀).1.2 ∧
    (watchedLearn T U r).2 = (watchedLearn T' U' r₀).2 ∧
    (watchedLearn T U r).1.1.bestState = (watchedLearn T' U' r₀).1.1.bestState ∧
    (watchedLearn T U r).1.1.learntEpochs = (watchedLearn T' U' r₀).1.1.learntEpochs := by
  unfold watchedLearn Rec.startLearning
  rcases h.create with ⟨e, h1, h2⟩ | ⟨s, s', h1, h2, h0⟩
  · rw [h1, h2]; exact ⟨rfl, rfl, hb, hl⟩
  rw [h1, h2]
  simp only
  obtain ⟨q', o, t, t', l1, l2⟩ := watchedLoop_kept h U.maxEpoch 0
    (⟨r.trainEpochs, r.bestState, r.learntEpochs, ⊥, 0, []⟩ : Kept β S) s s' h0
  have l1' : watchedLoop T U U.maxEpoch 0 ⟨{ r with trainer := some s }, ⊥, 0, []⟩ = (q'.loop t, o) := l1
  have l2' : watchedLoop T' U' U'.maxEpoch 0 ⟨{ r₀ with trainer := some s' }, ⊥, 0, []⟩ =
      (q'.loop t', o) := by
    rw [← h.maxEpoch]
    rw [hn, hb, hl] at l2
    exact l2
  rw [l1', l2']
  cases o with
  | error e => exact ⟨rfl, rfl, rfl, rfl⟩
  | ok u =>
    obtain ⟨n, bs, le, b, d, log⟩ := q'
    cases bs with
    | none => exact ⟨rfl, rfl, rfl, rfl⟩
    | some bst => exact ⟨rfl, rfl, rfl, rfl⟩

/-- When it returns, the trainer has loaded the selected state. -/
theorem watchedLearn_loaded (T : TrainerOps σ β) (U : WatchedSetup σ S) (r r' : Rec σ β)
    (log : List (Event S)) (h : watchedLearn T U r = ((r', log), .ok ())) :
    ∃ b last, r'.bestState = some b ∧ r'.trainer = some (T.load b last) := by
  unfold watchedLearn at h
  cases hs : r.startLearning T with
  | error e => rw [hs] at h; cases h
  | ok r₁ =>
    rw [hs] at h
    simp only at h
    rcases hl : watchedLoop T U U.maxEpoch 0 ⟨r₁, ⊥, 0, []⟩ with ⟨st, o⟩
    rw [hl] at h
    cases o with
    | error e => cases h
    | ok u =>
      simp only at h
      obtain ⟨⟨n, tr, bs, le⟩, b, d, lg⟩ := st
      cases tr with
      | none => cases bs <;> cases h
      | some t =>
        cases bs with
        | none => cases h
        | some bst =>
          simp only [Rec.loadState, Prod.mk.injEq] at h
          obtain ⟨⟨rfl, -⟩, -⟩ := h
          exact ⟨bst, t, rfl, rfl⟩

/-- Without effects on the trainer this is the loop of the other theorems. -/
theorem watchedLearn_quiet (T : TrainerOps σ β) (U : WatchedSetup σ S)
    (h : ∀ k s, (U.evaluator k s).2 = s) (r : Rec σ β) :
    watchedLearn T U r = learnWithOptimizer T U.quiet r := by
  have hbody : ∀ k st, watchedBody T U k st = body T U.quiet k st := by
    intro k st
    unfold watchedBody body
    cases hr : st.model.runEpoch T k with
    | error e => rfl
    | ok r₁ =>
      simp only
      have hq : U.quiet.validateEpoch = U.validateEpoch := rfl
      rw [hq]
      split_ifs with h1 h2
      · rfl
      · rfl
      · obtain ⟨n, tr, bs, le⟩ := r₁
        cases tr with
        | none => rfl
        | some s =>
          simp only [h]
          cases hx : (U.evaluator k s).1 with
          | error e => simp only [WatchedSetup.quiet, hx]
          | ok sc => simp only [WatchedSetup.quiet, hx]
  have hloop : ∀ left k st, watchedLoop T U left k st = loop T U.quiet left k st := by
    intro left
    induction left with
    | zero => intro k st; rfl
    | succ left ih =>
      intro k st
      simp only [watchedLoop, loop, hbody]
      rcases body T U.quiet k st with ⟨st', fl⟩
      cases fl with
      | next => exact ih _ _
      | stop => rfl
      | raise e => rfl
  unfold watchedLearn learnWithOptimizer
  cases hs : r.startLearning T with
  | error e => rfl
  | ok r₁ =>
    simp only [hloop]
    rfl

end Irspack.EarlyStop
