import Mathlib.Order.Fin.Basic
import Verif.Proofs.EarlyStop

/-!
# C51 (early stopping returns the best state), C52 (patience), C53 (retraining)

`T.after n` is the trainer's state after `n` epochs, `validationsOf log` lists the validations that took
place (index of the epoch, score), `epochsOf log` the epochs that were run and `reportsOf log` the values
reported to the trial.
-/

namespace Irspack.EarlyStop

open Spec.EarlyStop

variable {σ β S : Type} [LinearOrder S] [OrderBot S] [Neg S]

/-! ## A concrete trainer for the non-vacuity examples -/

/-- a trainer whose state is the number of epochs it was trained for -/
def countingOps : TrainerOps Nat Nat := ⟨.ok 0, fun _ s => .ok (s + 1), id, fun b _ => b⟩

/-- an evaluator that returns the given scores one after another (then NaN) -/
def listEvaluator (v : Nat) (l : List (Option (Fin 100))) : Nat → Nat → Except Err (Option (Fin 100)) :=
  fun k _ => .ok ((l[(k + 1) / v - 1]?).getD none)

/-- scores 3, 7, NaN, 7, 5, 9 at epochs 2, 4, …; patience 3; at most 20 epochs -/
def exampleSetup : Setup Nat (Fin 100) :=
  ⟨some (listEvaluator 2 [some 3, some 7, none, some 7, some 5, some 9]), none, 20, 2, 3⟩

/-! ## C51 -/

/-- C51 (best state).  If `learn_with_optimizer` with an evaluator returns normally on a recommender that
was not trained before, then one of the validations performed – the first one with the greatest score –
determines the result: `learnt_config["train_epochs"]` is its epoch, the trainer, which was in the state
after the last epoch that was run, has loaded the state saved at that epoch, and every recorded score is the evaluator's answer for the state at that epoch. -/
theorem C51_best_state (T : TrainerOps σ β) (U : Setup σ S) (f : Nat → σ → Except Err (Option S))
    (hU : U.evaluator = some f) (r r' : Rec σ β) (hr : r.bestState = none) (log : List (Event S))
    (h : learnWithOptimizer T U r = ((r', log), .ok ())) :
    ∃ k s st last, (k, some s) ∈ validationsOf log ∧ ⊥ < s ∧
      (∀ k' s', (k', some s') ∈ validationsOf log → s' ≤ s ∧ (k' < k → s' < s)) ∧
      T.after (k + 1) = .ok st ∧ T.after (epochsOf log).length = .ok last ∧
      r'.learntEpochs = some (k + 1) ∧
      r'.bestState = some (T.save st) ∧ r'.trainer = some (T.load (T.save st) last) ∧
      ∀ k' x, (k', x) ∈ validationsOf log → ∃ st', T.after (k' + 1) = .ok st' ∧ f k' st' = .ok x := by
  have hv : 0 < U.validateEpoch := by
    by_contra hv
    have hv : U.validateEpoch = 0 := by omega
    unfold learnWithOptimizer Rec.startLearning at h
    cases hc : T.create with
    | error e => rw [hc] at h; simp at h
    | ok s₀ =>
      rw [hc] at h
      simp only at h
      cases hm : U.maxEpoch with
      | zero =>
        rw [hm, hU] at h
        simp [loop, Rec.loadState, hr] at h
      | succ n =>
        rw [hm] at h
        unfold loop body Rec.runEpoch at h
        simp only [hv, if_pos] at h
        cases hrun : T.runEpoch 0 s₀ with
        | error e => rw [hrun] at h; simp at h
        | ok s => rw [hrun] at h; simp at h
  obtain ⟨n, st, hF, rfl, hld⟩ := learn_ok_inv T U f r hU hv h
  obtain ⟨j, hb, -, hj0, hj1⟩ := hF.inv.best
  obtain ⟨last, hlast, htr⟩ := hF.inv.state
  have hjne : j ≠ 0 := by
    intro hj
    unfold Rec.loadState at hld
    rw [htr, (hj0 hj).1, hr] at hld
    simp at hld
  obtain ⟨sb, hsb, hbs, hle⟩ := hj1 hjne
  rcases hb with ⟨rfl, -⟩ | ⟨h1, h2, h3, h4, h5⟩
  · exact absurd rfl hjne
  have hjv : 0 < j * U.validateEpoch := Nat.mul_pos h1 hv
  unfold Rec.loadState at hld
  rw [htr, hbs] at hld
  have hr' := Except.ok.inj hld
  refine ⟨j * U.validateEpoch - 1, st.best, sb, last, ?_, h4, ?_, ?_, ?_, ?_, ?_, ?_, ?_⟩
  · rw [mem_validations T U f r hF]
    exact ⟨j, h1, h2, rfl, h3.symm⟩
  · intro k' s' hk'
    rw [mem_validations T U f r hF] at hk'
    obtain ⟨i, hi1, hi2, rfl, hi3⟩ := hk'
    have hx := h5 i hi1 hi2 s' hi3.symm
    refine ⟨hx.1, fun hlt => hx.2 ?_⟩
    by_contra hij
    have := Nat.mul_le_mul_right U.validateEpoch (Nat.le_of_not_lt hij)
    omega
  · rw [Nat.sub_add_cancel hjv]; exact hsb
  · rw [hF.epochs, List.length_range]; exact hlast
  · rw [← hr', Nat.sub_add_cancel hjv]; exact hle
  · rw [← hr']
  · rw [← hr']
  · intro k' x hk'
    rw [mem_validations T U f r hF] at hk'
    obtain ⟨i, hi1, hi2, rfl, rfl⟩ := hk'
    have hiv : 0 < i * U.validateEpoch := Nat.mul_pos hi1 hv
    obtain ⟨s', hs', hfs⟩ := hF.inv.genuine i hi1
      ((Nat.mul_le_mul_right _ hi2).trans (Nat.div_mul_le_self _ _))
    exact ⟨s', by rw [Nat.sub_add_cancel hiv]; exact hs', hfs⟩

/-- the hypotheses of `C51_best_state` are met: of the scores 3, 7, NaN, 7, 5 (three failures in a row
after the second) the second is the best, at epoch 4 -/
example : learnWithOptimizer countingOps exampleSetup (Rec.new 128) =
    ((⟨128, some 4, some 4, some 4⟩, (List.range 5).flatMap (fun j => [.epoch (2 * j), .epoch (2 * j + 1),
      .validate (2 * j + 1) ([some 3, some 7, none, some 7, some 5][j]?.getD none)])), .ok ()) := by
  decide +kernel

/-- C51 (what the model answers).  If loading a saved state restores what can be observed of the trainer
(`view`), the recommender returned by early stopping is observably in its best state. -/
theorem C51_best_view {O : Type} (view : σ → O) (T : TrainerOps σ β)
    (hview : ∀ s last, view (T.load (T.save s) last) = view s) (U : Setup σ S)
    (f : Nat → σ → Except Err (Option S)) (hU : U.evaluator = some f) (r r' : Rec σ β)
    (hr : r.bestState = none) (log : List (Event S))
    (h : learnWithOptimizer T U r = ((r', log), .ok ())) :
    ∃ k s st t, (k, some s) ∈ validationsOf log ∧
      (∀ k' s', (k', some s') ∈ validationsOf log → s' ≤ s) ∧ T.after (k + 1) = .ok st ∧
      f k st = .ok (some s) ∧ r'.trainer = some t ∧ view t = view st := by
  obtain ⟨k, s, st, last, h1, -, h3, h4, -, -, -, h7, h8⟩ := C51_best_state T U f hU r r' hr log h
  obtain ⟨st', hst', hf⟩ := h8 k (some s) h1
  rw [h4] at hst'
  obtain rfl := Except.ok.inj hst'
  exact ⟨k, s, st, _, h1, fun k' s' hk => (h3 k' s' hk).1, h4, hf, h7, hview _ _⟩

/-- C51 (value of a trial).  If the evaluator's answer depends only on what can be observed of the trainer,
then evaluating the returned recommender again gives the best validation score.  (This is the value that
the optimiser reports for the trial.) -/
theorem C51_evaluated_again {O : Type} (view : σ → O) (T : TrainerOps σ β)
    (hview : ∀ s last, view (T.load (T.save s) last) = view s) (U : Setup σ S)
    (g : O → Except Err (Option S)) (hU : U.evaluator = some (fun _ s => g (view s))) (r r' : Rec σ β)
    (hr : r.bestState = none) (log : List (Event S))
    (h : learnWithOptimizer T U r = ((r', log), .ok ())) :
    ∃ t s, r'.trainer = some t ∧ g (view t) = .ok (some s) ∧
      (∃ k, (k, some s) ∈ validationsOf log) ∧
      ∀ k' s', (k', some s') ∈ validationsOf log → s' ≤ s := by
  obtain ⟨k, s, st, t, h1, h2, -, h4, h5, h6⟩ := C51_best_view view T hview U _ hU r r' hr log h
  exact ⟨t, s, h5, by rw [h6]; exact h4, ⟨k, h1⟩, h2⟩

example : ∃ r' log, learnWithOptimizer countingOps
    (⟨some (fun _ s => .ok (some (if s = 4 then 1 else 2))), none, 8, 4, 2⟩ : Setup Nat (Fin 100))
    (Rec.new 3) = ((r', log), .ok ()) := ⟨_, _, rfl⟩

/-- C51 (when it returns and when it raises).  Let training and evaluation not raise (up to
`max_epoch` epochs) and no trial be given.  A recommender that was not trained before returns normally iff one of the first
`min(max_epoch / validate_epoch, patience)` validations gives a number above `-inf`; otherwise
`learn_with_optimizer` raises `RuntimeError`.  In particular it raises if `max_epoch < validate_epoch`. -/
theorem C51_returns_iff (T : TrainerOps σ β) (U : Setup σ S) (f : Nat → σ → Except Err (Option S))
    (hU : U.evaluator = some f) (hp : U.shouldPrune = none) (hv : 0 < U.validateEpoch)
    (hT : ∀ n, n ≤ U.maxEpoch → ∃ s, T.after n = .ok s)
    (hf : ∀ k s, T.after (k + 1) = .ok s → ∃ x, f k s = .ok x) (r : Rec σ β) (hr : r.bestState = none) :
    ((learnWithOptimizer T U r).2 = .ok () ∨ (learnWithOptimizer T U r).2 = .error .runtimeError) ∧
      ((learnWithOptimizer T U r).2 = .ok () ↔
        ∃ j, 1 ≤ j ∧ j * U.validateEpoch ≤ U.maxEpoch ∧ j ≤ max U.degradationMax 1 ∧
          Usable (validationScore T.create T.runEpoch f U.validateEpoch j)) := by
  obtain ⟨s₀, hs₀⟩ := hT 0 (Nat.zero_le _)
  have hs₀ : T.create = .ok s₀ := hs₀
  have hloop := loop_spec T U f r hU hv U.maxEpoch 0 _ (inv_init T U f r s₀ hs₀ hv) rfl
    (fun m hm hmk => absurd hmk (by have := Nat.mul_pos hm hv; omega)) (fun i hi => absurd hi (by omega))
  have hstart : r.startLearning T = .ok { r with trainer := some s₀ } := by
    unfold Rec.startLearning; rw [hs₀]
  unfold learnWithOptimizer
  rw [hstart]
  simp only
  cases hl : loop T U U.maxEpoch 0 ⟨{ r with trainer := some s₀ }, ⊥, 0, []⟩ with
  | mk st o =>
    cases o with
    | error e =>
      exfalso
      rw [hl] at hloop
      obtain ⟨n, hn, -, -, ⟨s, hs, h⟩ | ⟨-, s, hs, h⟩ | ⟨-, -, -, -, -, prune, h, -⟩⟩ := hloop
      · obtain ⟨s', hs'⟩ := hT (n + 1) (by omega)
        unfold TrainerOps.after at hs hs'
        rw [stateAfter, hs] at hs'
        simp [h] at hs'
      · obtain ⟨s', hs'⟩ := hf n s hs
        rw [hs'] at h; simp at h
      · rw [hp] at h; simp at h
    | ok u =>
      obtain ⟨n, hF⟩ := finished_of_loop T U f r hU hv hs₀ hl
      obtain ⟨j, hb, -, hj0, hj1⟩ := hF.inv.best
      obtain ⟨last, -, htr⟩ := hF.inv.state
      rw [hU]
      simp only
      rcases Nat.eq_zero_or_pos j with hj | hj
      · have hld : st.model.loadState T = .error .runtimeError := by
          unfold Rec.loadState
          rw [htr, (hj0 hj).1, hr]
        rw [hld]
        refine ⟨.inr rfl, ⟨fun h => by simp at h, ?_⟩⟩
        rintro ⟨i, hi1, hi2, hi3, s, hs, hbs⟩
        exfalso
        rcases hb with ⟨-, -, hb⟩ | hb
        swap
        · have := hb.1; omega
        have hle : i ≤ n / U.validateEpoch := by
          rcases Nat.lt_or_ge n U.maxEpoch with hn | hn
          · obtain ⟨m, hm, rfl, hx⟩ := hF.stops hn
            rw [Nat.mul_div_cancel _ hv]
            exact hi3.trans hx.1
          · exact (Nat.le_div_iff_mul_le hv).mpr (hi2.trans hn)
        rcases hb i hi1 hle with h | h
        · exact absurd (h.symm.trans hs) (by simp)
        · rw [Option.some.inj (hs.symm.trans h)] at hbs; exact lt_irrefl _ hbs
      · obtain ⟨sb, hsb, hbs, hle⟩ := hj1 (by omega)
        obtain ⟨r₂, hld⟩ : ∃ r₂, st.model.loadState T = .ok r₂ := by
          unfold Rec.loadState
          rw [htr, hbs]
          exact ⟨_, rfl⟩
        rw [hld]
        refine ⟨.inl rfl, ⟨fun _ => ?_, fun _ => rfl⟩⟩
        rcases hb with ⟨hb, -⟩ | ⟨h1, h2, h3, h4, h5⟩
        · omega
        by_contra hcon
        push Not at hcon
        have hjm : j * U.validateEpoch ≤ U.maxEpoch :=
          ((Nat.mul_le_mul_right _ h2).trans (Nat.div_mul_le_self _ _)).trans hF.le
        have hpj : U.patience < j := by
          by_contra hle
          exact hcon j h1 hjm (Nat.le_of_not_lt hle) ⟨_, h3, h4⟩
        have hp1 : 1 ≤ U.patience := le_max_right _ _
        refine hF.goesOn U.patience hp1 ?_ ⟨Nat.le_refl _, fun i hi hip => ?_⟩
        · have h6 := (Nat.mul_le_mul_right U.validateEpoch h2).trans (Nat.div_mul_le_self _ _)
          have h7 := Nat.mul_lt_mul_of_pos_right hpj hv
          omega
        · rintro ⟨s, hs, hsb, -⟩
          refine hcon i (by omega) ?_ hip ⟨s, hs, hsb⟩
          exact (Nat.mul_le_mul_right _ (hip.trans hpj.le)).trans hjm

/-- all hypotheses of `C51_returns_iff` are met, with a normal return … -/
example : exampleSetup.shouldPrune = none ∧ 0 < exampleSetup.validateEpoch ∧
    (learnWithOptimizer countingOps exampleSetup (Rec.new 128)).2 = .ok () := by decide +kernel

/-- … and with an exception: the first usable score would come after three NaN validations -/
example : (learnWithOptimizer countingOps
    ⟨some (listEvaluator 2 [none, none, none, some 7]), none, 20, 2, 3⟩ (Rec.new 128)).2 =
    .error .runtimeError := by decide +kernel

/-- C51 (no state can be selected).  Without a usable validation the exception is raised also when a trial
is given, unless the trial is pruned first. -/
theorem C51_nothing_usable (T : TrainerOps σ β) (U : Setup σ S) (f : Nat → σ → Except Err (Option S))
    (hU : U.evaluator = some f) (hf : ∀ k s x, f k s = .ok x → ¬ Usable x) (r : Rec σ β)
    (hr : r.bestState = none) : ∃ e, (learnWithOptimizer T U r).2 = .error e := by
  cases h : learnWithOptimizer T U r with
  | mk p o =>
    cases o with
    | error e => exact ⟨e, rfl⟩
    | ok u =>
      exfalso
      obtain ⟨r', log⟩ := p
      obtain ⟨k, s, st, last, h1, h2, -, -, -, -, -, -, h8⟩ := C51_best_state T U f hU r r' hr log h
      obtain ⟨st', -, hfs⟩ := h8 k _ h1
      exact hf k st' _ hfs ⟨s, rfl, h2⟩

example : ∀ k s x, (fun _ _ => .ok none : Nat → Nat → Except Err (Option (Fin 100))) k s = .ok x →
    ¬ Usable x := by
  rintro k s x h ⟨s', hs', -⟩
  have := Except.ok.inj h
  rw [← this] at hs'
  simp at hs'

/-- C51 (a recommender trained before).  The restriction to recommenders that were not trained before is
needed: `best_state` is not reset, so a second call in which no validation gives a number returns normally
and leaves the recommender in the state selected by the first call, with its `train_epochs`. -/
theorem C51_stale_state_counterexample :
    ∃ (T : TrainerOps Nat Nat) (U U' : Setup Nat (Fin 100)) (r₁ r₂ : Rec Nat Nat) (log₁ log₂ : _),
      learnWithOptimizer T U (Rec.new 128) = ((r₁, log₁), .ok ()) ∧
      U'.evaluator = some (fun _ _ => .ok none) ∧
      learnWithOptimizer T U' r₁ = ((r₂, log₂), .ok ()) ∧
      validationsOf log₂ = [(9, none), (19, none)] ∧
      r₂.learntEpochs = some 4 ∧ r₂.trainer = some 4 ∧ T.after 20 = .ok 20 := by
  refine ⟨countingOps, exampleSetup, ⟨some (fun _ _ => .ok none), none, 20, 10, 5⟩,
    ⟨128, some 4, some 4, some 4⟩, ⟨128, some 4, some 4, some 4⟩, _, _, rfl, rfl, rfl, ?_, rfl, rfl, rfl⟩
  decide +kernel

/-! ### Histories of calls -/

/-- The recommenders a program can hold: a new one, and what calls of `learn_with_optimizer` leave behind,
whether they return or raise (a failing trainer, a failing evaluator, a pruned trial).  Each call has its
own evaluator, trial and numbers, and may meet another trainer from `Ts` (another random stream). `learn`
is such a call. -/
inductive RecReached (S : Type) [LinearOrder S] [OrderBot S] [Neg S] (Ts : TrainerOps σ β → Prop) :
    Rec σ β → Prop
  | new (trainEpochs : Nat) : RecReached S Ts (Rec.new trainEpochs)
  | call {r : Rec σ β} (h : RecReached S Ts r) (T : TrainerOps σ β) (hT : Ts T) (U : Setup σ S) :
      RecReached S Ts (learnWithOptimizer T U r).1.1
  | learn {r : Rec σ β} (h : RecReached S Ts r) (T : TrainerOps σ β) (hT : Ts T) :
      RecReached S Ts (learn (S := S) T r).1.1

/-- `learnt_config["train_epochs"]` and `best_state` belong together -/
def Told (Ts : TrainerOps σ β → Prop) (r : Rec σ β) : Prop :=
  (r.bestState = none ∧ r.learntEpochs = none) ∨
    ∃ T k st, Ts T ∧ 1 ≤ k ∧ T.after k = .ok st ∧ r.learntEpochs = some k ∧ r.bestState = some (T.save st)

/-- the trainer is one that was trained for some number of epochs, into which the best state may have been
loaded -/
def Trained (Ts : TrainerOps σ β → Prop) (r : Rec σ β) : Prop :=
  r.trainer = none ∨ ∃ T n st, Ts T ∧ T.after n = .ok st ∧
    (r.trainer = some st ∨ ∃ b, r.bestState = some b ∧ r.trainer = some (T.load b st))

theorem told_congr {Ts : TrainerOps σ β → Prop} {r r' : Rec σ β} (h : Told Ts r)
    (h1 : r'.bestState = r.bestState) (h2 : r'.learntEpochs = r.learntEpochs) : Told Ts r' := by
  unfold Told
  rw [h1, h2]
  exact h

theorem reportTrial_model (U : Setup σ S) (k : Nat) (score : Option S) (st : Loop σ β S) :
    (reportTrial U k score st).1.model = st.model ∧ (reportTrial U k score st).2 ≠ .stop := by
  unfold reportTrial
  cases U.shouldPrune with
  | none => exact ⟨rfl, by simp⟩
  | some prune => simp only; split <;> exact ⟨rfl, by simp⟩

theorem body_told {Ts : TrainerOps σ β → Prop} {T : TrainerOps σ β} (hT : Ts T) (U : Setup σ S) (k : Nat)
    (st : Loop σ β S) (s : σ) (hs : T.after k = .ok s) (ht : st.model.trainer = some s)
    (h : Told Ts st.model) :
    Told Ts (body T U k st).1.model ∧
      ((∃ s', T.after (k + 1) = .ok s' ∧ (body T U k st).1.model.trainer = some s') ∨
        (body T U k st).1.model.trainer = some s ∧ ∃ e, (body T U k st).2 = .raise e) := by
  unfold body Rec.runEpoch
  rw [ht]
  simp only
  cases hr : T.runEpoch k s with
  | error e => exact ⟨h, Or.inr ⟨ht, e, rfl⟩⟩
  | ok s' =>
    have ha : T.after (k + 1) = .ok s' := by
      show stateAfter T.create T.runEpoch (k + 1) = _
      rw [stateAfter, show stateAfter T.create T.runEpoch k = .ok s from hs]
      exact hr
    have h' : Told Ts { st.model with trainer := some s' } := told_congr h rfl rfl
    simp only
    split_ifs
    · exact ⟨h', Or.inl ⟨s', ha, rfl⟩⟩
    · exact ⟨h', Or.inl ⟨s', ha, rfl⟩⟩
    · cases U.evaluator with
      | none => exact ⟨h', Or.inl ⟨s', ha, rfl⟩⟩
      | some f =>
        simp only
        cases f k s' with
        | error e => exact ⟨h', Or.inl ⟨s', ha, rfl⟩⟩
        | ok score =>
          simp only
          unfold judge Rec.saveState
          simp only
          split_ifs
          · rw [(reportTrial_model U k score _).1]
            exact ⟨Or.inr ⟨T, k + 1, s', hT, by omega, ha, rfl, rfl⟩, Or.inl ⟨s', ha, rfl⟩⟩
          · exact ⟨h', Or.inl ⟨s', ha, rfl⟩⟩
          · rw [(reportTrial_model U k score _).1]
            exact ⟨h', Or.inl ⟨s', ha, rfl⟩⟩

theorem loop_told {Ts : TrainerOps σ β → Prop} {T : TrainerOps σ β} (hT : Ts T) (U : Setup σ S)
    (left : Nat) : ∀ (k : Nat) (st : Loop σ β S) (s : σ), T.after k = .ok s → st.model.trainer = some s →
      Told Ts st.model → Told Ts (loop T U left k st).1.model ∧
        ∃ n s', T.after n = .ok s' ∧ (loop T U left k st).1.model.trainer = some s' := by
  induction left with
  | zero => intro k st s hs ht h; exact ⟨h, k, s, hs, ht⟩
  | succ left ih =>
    intro k st s hs ht h
    have hb := body_told hT U k st s hs ht h
    unfold loop
    cases hB : body T U k st with
    | mk st' fl =>
      rw [hB] at hb
      obtain ⟨h1, h2⟩ := hb
      have h3 : ∃ n s', T.after n = .ok s' ∧ st'.model.trainer = some s' := by
        rcases h2 with ⟨s', ha, hx⟩ | ⟨hx, -⟩
        · exact ⟨_, s', ha, hx⟩
        · exact ⟨k, s, hs, hx⟩
      cases fl with
      | next =>
        rcases h2 with ⟨s', ha, hx⟩ | ⟨-, e, he⟩
        · exact ih (k + 1) st' s' ha hx h1
        · cases he
      | stop => exact ⟨h1, h3⟩
      | raise e => exact ⟨h1, h3⟩

theorem call_told {Ts : TrainerOps σ β → Prop} {r : Rec σ β} (h : Told Ts r) (ht : Trained Ts r)
    {T : TrainerOps σ β} (hT : Ts T) (U : Setup σ S) :
    Told Ts (learnWithOptimizer T U r).1.1 ∧ Trained Ts (learnWithOptimizer T U r).1.1 := by
  unfold learnWithOptimizer Rec.startLearning
  cases hc : T.create with
  | error e => exact ⟨h, ht⟩
  | ok s₀ =>
    simp only
    have hl := loop_told hT U U.maxEpoch 0 ⟨{ r with trainer := some s₀ }, ⊥, 0, []⟩ s₀ hc rfl
      (told_congr h rfl rfl)
    cases hL : loop T U U.maxEpoch 0 ⟨{ r with trainer := some s₀ }, ⊥, 0, []⟩ with
    | mk st o =>
      rw [hL] at hl
      obtain ⟨h1, n, s', hs', hx⟩ := hl
      have h2 : Trained Ts st.model := Or.inr ⟨T, n, s', hT, hs', Or.inl hx⟩
      cases o with
      | error e => exact ⟨h1, h2⟩
      | ok u =>
        simp only
        cases U.evaluator with
        | none => exact ⟨h1, h2⟩
        | some f =>
          simp only
          unfold Rec.loadState
          simp only at hx
          rw [hx]
          cases hb : st.model.bestState with
          | none => exact ⟨h1, h2⟩
          | some b => exact ⟨told_congr h1 hb.symm rfl, Or.inr ⟨T, n, s', hT, hs', Or.inr ⟨b, rfl, rfl⟩⟩⟩

/-- C51 (every history).  Whatever calls a recommender has been through, and however they ended (pruned
trials, exceptions out of the trainer or the evaluator): `learnt_config["train_epochs"]` is there exactly
when a best state is, it is the number of epochs after which that state was saved, and the trainer is in a
state some number of epochs leads to, or has loaded the best state. -/
theorem C51_history {Ts : TrainerOps σ β → Prop} {r : Rec σ β} (h : RecReached S Ts r) :
    ((r.bestState = none ∧ r.learntEpochs = none) ∨
      ∃ T k st, Ts T ∧ 1 ≤ k ∧ T.after k = .ok st ∧ r.learntEpochs = some k ∧
        r.bestState = some (T.save st)) ∧
    (r.trainer = none ∨ ∃ T n st, Ts T ∧ T.after n = .ok st ∧
      (r.trainer = some st ∨ ∃ b, r.bestState = some b ∧ r.trainer = some (T.load b st))) := by
  induction h with
  | new n => exact ⟨Or.inl ⟨rfl, rfl⟩, Or.inl rfl⟩
  | call _ T hT U ih => exact call_told ih.1 ih.2 hT U
  | learn _ T hT ih => exact call_told ih.1 ih.2 hT _

/-- The hypothesis is met by a recommender with a best state, after a call that raised. -/
example : ∃ r : Rec Nat Nat, RecReached (Fin 100) (Eq countingOps) r ∧ r.learntEpochs = some 4 ∧
    r.bestState = some 4 ∧ r.trainer = some 5 :=
  ⟨_, .call (.call (.new 3) countingOps rfl exampleSetup) countingOps rfl
    (⟨some (fun _ _ => .error .valueError), none, 20, 5, 5⟩ : Setup Nat (Fin 100)), rfl, rfl, rfl⟩

/-! ## C52 -/

/-- C52 (patience).  If `learn_with_optimizer` with an evaluator returns normally, it has run epochs
`0, …, n - 1` and validated exactly after every `validate_epoch` of them, where `n` is determined as
follows: training goes on as long as there is an improvement among the last `score_degradation_max`
validations, and stops before `max_epoch` epochs only if there is none.  (`score_degradation_max = 0`
acts like 1.) -/
theorem C52_patience (T : TrainerOps σ β) (U : Setup σ S) (f : Nat → σ → Except Err (Option S))
    (hU : U.evaluator = some f) (hv : 0 < U.validateEpoch) (r r' : Rec σ β) (log : List (Event S))
    (h : learnWithOptimizer T U r = ((r', log), .ok ())) :
    ∃ n, n ≤ U.maxEpoch ∧ epochsOf log = List.range n ∧
      (validationsOf log = (List.range (n / U.validateEpoch)).map (fun i =>
        ((i + 1) * U.validateEpoch - 1, validationScore T.create T.runEpoch f U.validateEpoch (i + 1)))) ∧
      (∀ m, 1 ≤ m → m * U.validateEpoch < n →
        ¬ Exhausted (validationScore T.create T.runEpoch f U.validateEpoch) (max U.degradationMax 1) m) ∧
      (n < U.maxEpoch → ∃ m, 1 ≤ m ∧ n = m * U.validateEpoch ∧
        Exhausted (validationScore T.create T.runEpoch f U.validateEpoch) (max U.degradationMax 1) m) := by
  obtain ⟨n, st, hF, rfl, -⟩ := learn_ok_inv T U f r hU hv h
  exact ⟨n, hF.le, hF.epochs, hF.validations, hF.goesOn, hF.stops⟩

/-- C52 (reports).  If `learn_with_optimizer` with an evaluator and a trial returns normally, the negated
score of every validation has been reported to the trial, in order and with the epoch as step, except for
the last one if training stopped because of it. -/
theorem C52_reports (T : TrainerOps σ β) (U : Setup σ S) (f : Nat → σ → Except Err (Option S))
    (hU : U.evaluator = some f) (hv : 0 < U.validateEpoch) (r r' : Rec σ β) (log : List (Event S))
    (h : learnWithOptimizer T U r = ((r', log), .ok ())) :
    (U.shouldPrune = none → reportsOf log = []) ∧
    (U.shouldPrune ≠ none →
      (∀ m, 1 ≤ m → m * U.validateEpoch ≤ (epochsOf log).length →
          ¬ Exhausted (validationScore T.create T.runEpoch f U.validateEpoch) (max U.degradationMax 1) m) ∧
        reportsOf log = (validationsOf log).map (fun p => (p.2.map (fun s => -s), p.1)) ∨
      (∃ m, 1 ≤ m ∧ (epochsOf log).length = m * U.validateEpoch ∧
        Exhausted (validationScore T.create T.runEpoch f U.validateEpoch) (max U.degradationMax 1) m) ∧
        reportsOf log = ((validationsOf log).map (fun p => (p.2.map (fun s => -s), p.1))).dropLast) := by
  obtain ⟨n, st, hF, rfl, -⟩ := learn_ok_inv T U f r hU hv h
  rw [hF.epochs, List.length_range]
  refine ⟨hF.silent, fun hp => ?_⟩
  rcases hF.reports hp with h | ⟨m, h1, h2, h3, h4⟩
  · exact .inl h
  · exact .inr ⟨⟨m, h1, h2, h3⟩, h4⟩

example : 0 < exampleSetup.validateEpoch ∧ ∃ r' log,
    learnWithOptimizer countingOps { exampleSetup with shouldPrune := some (fun _ => false) } (Rec.new 128) =
    ((r', log), .ok ()) ∧ reportsOf log = [(some (-3), 1), (some (-7), 3), (none, 5), (some (-7), 7)] := by
  exact ⟨by decide, _, _, rfl, rfl⟩

/-- C52 (pruned trials).  If training and evaluation never raise and `learn_with_optimizer` raises
`TrialPruned`, then the trial was pruned right after the report of the last validation: every validation
so far was reported, the pruner asked to stop then and at none of the earlier reports, and the patience
was not used up before. -/
theorem C52_pruned (T : TrainerOps σ β) (U : Setup σ S) (f : Nat → σ → Except Err (Option S))
    (hU : U.evaluator = some f) (hv : 0 < U.validateEpoch)
    (hT : ∀ n, n ≤ U.maxEpoch → ∃ s, T.after n = .ok s)
    (hf : ∀ k s, T.after (k + 1) = .ok s → ∃ x, f k s = .ok x) (r r' : Rec σ β) (log : List (Event S))
    (h : learnWithOptimizer T U r = ((r', log), .error .trialPruned)) :
    ∃ prune n m, U.shouldPrune = some prune ∧ 1 ≤ m ∧ n = m * U.validateEpoch ∧ n ≤ U.maxEpoch ∧
      epochsOf log = List.range n ∧
      validationsOf log = (List.range m).map (fun i => ((i + 1) * U.validateEpoch - 1,
        validationScore T.create T.runEpoch f U.validateEpoch (i + 1))) ∧
      reportsOf log = (validationsOf log).map (fun p => (p.2.map (fun s => -s), p.1)) ∧
      (∃ l, log = l ++ [.report ((validationScore T.create T.runEpoch f U.validateEpoch m).map
        (fun s => -s)) (n - 1)]) ∧
      prune log = true ∧
      (∀ l x k, l ++ [.report x k] <+: log → l ++ [.report x k] ≠ log →
        prune (l ++ [.report x k]) = false) ∧
      ∀ i, 1 ≤ i → i ≤ m →
        ¬ Exhausted (validationScore T.create T.runEpoch f U.validateEpoch) (max U.degradationMax 1) i := by
  obtain ⟨s₀, hs₀⟩ := hT 0 (Nat.zero_le _)
  have hs₀ : T.create = .ok s₀ := hs₀
  have hloop := loop_spec T U f r hU hv U.maxEpoch 0 _ (inv_init T U f r s₀ hs₀ hv) rfl
    (fun m hm hmk => absurd hmk (by have := Nat.mul_pos hm hv; omega)) (fun i hi => absurd hi (by omega))
  unfold learnWithOptimizer Rec.startLearning at h
  rw [hs₀] at h
  simp only at h
  cases hl : loop T U U.maxEpoch 0 ⟨{ r with trainer := some s₀ }, ⊥, 0, []⟩ with
  | mk st o =>
    rw [hl] at h hloop
    cases o with
    | ok u =>
      rw [hU] at h
      simp only at h
      unfold Rec.loadState at h
      rcases htr : st.model.trainer with _ | s <;> rcases hbs : st.model.bestState with _ | b <;>
        simp [htr, hbs] at h
    | error e =>
      simp only [Prod.mk.injEq, Except.error.injEq] at h
      obtain ⟨⟨-, rfl⟩, rfl⟩ := h
      obtain ⟨n, hn, hne, hnp, ⟨s, hs, h⟩ | ⟨-, s, hs, h⟩ | ⟨-, hI, ⟨q, hq⟩, hne', hlog, prune, hp, hpr⟩⟩ := hloop
      · obtain ⟨s', hs'⟩ := hT (n + 1) (by omega)
        unfold TrainerOps.after at hs hs'
        rw [stateAfter, hs] at hs'
        simp [h] at hs'
      · obtain ⟨s', hs'⟩ := hf n s hs
        rw [hs'] at h; simp at h
      have hq0 : q ≠ 0 := by rintro rfl; omega
      have hq' : n + 1 = q * U.validateEpoch := by rw [hq, Nat.mul_comm]
      have hdiv : (n + 1) / U.validateEpoch = q := by rw [hq, Nat.mul_div_cancel_left _ hv]
      have hval : validationsOf st.log = (List.range q).map (fun i => ((i + 1) * U.validateEpoch - 1,
          validationScore T.create T.runEpoch f U.validateEpoch (i + 1))) := by
        rw [hlog, Setup.trace, validationsOf_trace _ hv, hdiv]
      refine ⟨prune, n + 1, q, hp, by omega, hq', by omega, ?_, hval, ?_, ?_, hpr, ?_, ?_⟩
      · rw [hlog, Setup.trace, epochsOf_trace]
      · rw [hlog, Setup.trace, reportsOf_trace, if_pos (by rw [hp]; rfl)]
      · refine ⟨U.trace T f n ++ [.epoch n, .validate n (valScore T f U.validateEpoch q)], ?_⟩
        rw [hlog, Setup.trace, Setup.trace, traceUpTo_succ, epochEvents,
          if_pos (Nat.mod_eq_zero_of_dvd ⟨q, hq⟩), hdiv, hp]
        simp
      · intro l x k hpre hneq
        obtain ⟨k', hk', hd, he⟩ := prefix_report T U f (n + 1) l x k (hlog ▸ hpre)
        rw [he]
        refine hnp k' ?_ prune hp hd
        rcases Nat.lt_or_ge k' n with h | h
        · exact h
        · exfalso
          apply hneq
          rw [he, hlog, show k' = n by omega]
      · intro i hi hiq
        exact hne' i hi (by rw [hq']; exact Nat.mul_le_mul_right _ hiq)

/-- a pruned trial: the pruner asks to stop as soon as two values were reported -/
example : ∃ r' log, learnWithOptimizer countingOps
    { exampleSetup with shouldPrune := some (fun l => decide (2 ≤ (reportsOf l).length)) } (Rec.new 128) =
    ((r', log), .error .trialPruned) ∧ epochsOf log = [0, 1, 2, 3] ∧
    reportsOf log = [(some (-3), 1), (some (-7), 3)] := ⟨_, _, rfl, rfl, rfl⟩

/-- C52 (bound).  Whatever happens – normal return or exception, with or without evaluator and trial – the
epochs run are `0, 1, …` in order and at most `max_epoch` of them. -/
theorem C52_at_most_max_epoch (T : TrainerOps σ β) (U : Setup σ S) (r : Rec σ β) :
    ∃ n, n ≤ U.maxEpoch ∧ epochsOf (learnWithOptimizer T U r).1.2 = List.range n := by
  unfold learnWithOptimizer Rec.startLearning
  cases hc : T.create with
  | error e => exact ⟨0, by omega, rfl⟩
  | ok s₀ =>
    obtain ⟨n, hn, he⟩ := loop_epochs T U U.maxEpoch 0 ⟨{ r with trainer := some s₀ }, ⊥, 0, []⟩ rfl
    rw [Nat.zero_add] at hn
    simp only
    cases hl : loop T U U.maxEpoch 0 ⟨{ r with trainer := some s₀ }, ⊥, 0, []⟩ with
    | mk st o =>
      rw [hl] at he
      cases o with
      | error e => exact ⟨n, hn, he⟩
      | ok u =>
        simp only
        cases U.evaluator with
        | none => exact ⟨n, hn, he⟩
        | some f =>
          simp only
          cases st.model.loadState T with
          | error e => exact ⟨n, hn, he⟩
          | ok r₂ => exact ⟨n, hn, he⟩

/-- C52 (errors).  `validate_epoch = 0` raises `ZeroDivisionError` once an epoch has been run. -/
theorem C52_validate_epoch_zero (T : TrainerOps σ β) (U : Setup σ S) (hv : U.validateEpoch = 0)
    (hm : 0 < U.maxEpoch) (s₀ s₁ : σ) (hc : T.create = .ok s₀) (hT : T.runEpoch 0 s₀ = .ok s₁) (r : Rec σ β) :
    (learnWithOptimizer T U r).2 = .error .zeroDivisionError := by
  unfold learnWithOptimizer Rec.startLearning
  rw [hc]
  obtain ⟨m, hm'⟩ : ∃ m, U.maxEpoch = m + 1 := ⟨U.maxEpoch - 1, by omega⟩
  rw [hm']
  simp only
  unfold loop body Rec.runEpoch
  simp only [hT, hv, if_pos]

/-- C52 (order of calls).  On a recommender that has not started learning, `run_epoch`, `save_state` and
`load_state` raise `RuntimeError`; so does `load_state` before a state was saved; a saved state is the
trainer's, and loading hands it to the trainer. -/
theorem C52_order_of_calls (T : TrainerOps σ β) (k n : Nat) (r : Rec σ β) (s : σ) (b : β) :
    ((Rec.new n : Rec σ β).runEpoch T k = .error .runtimeError ∧
      (Rec.new n : Rec σ β).saveState T = .error .runtimeError ∧
      (Rec.new n : Rec σ β).loadState T = .error .runtimeError) ∧
    (r.trainer = none → r.runEpoch T k = .error .runtimeError ∧ r.saveState T = .error .runtimeError ∧
      r.loadState T = .error .runtimeError) ∧
    (r.bestState = none → r.loadState T = .error .runtimeError) ∧
    (r.trainer = some s → r.saveState T = .ok { r with bestState := some (T.save s) }) ∧
    (r.trainer = some s → r.bestState = some b → r.loadState T = .ok { r with trainer := some (T.load b s) }) := by
  obtain ⟨e, tr, bs, l⟩ := r
  refine ⟨⟨rfl, rfl, rfl⟩, ?_, ?_, ?_, ?_⟩
  · rintro rfl; exact ⟨rfl, rfl, rfl⟩
  · rintro rfl; cases tr <;> rfl
  · rintro rfl; rfl
  · rintro rfl rfl; rfl

/-! ## C53 -/

/-- C53 (`learn`).  `learn()` runs exactly `train_epochs` epochs, or passes on the exception of the first
epoch that raises; when it returns, the trainer is in the state after `train_epochs` epochs. -/
theorem C53_learn (T : TrainerOps σ β) (r : Rec σ β) :
    (∃ st, T.after r.trainEpochs = .ok st ∧ learn (S := S) T r =
      (({ r with trainer := some st }, (List.range r.trainEpochs).map .epoch), .ok ())) ∨
    ∃ e, (learn (S := S) T r).2 = .error e ∧ T.after r.trainEpochs = .error e := by
  unfold learn learnWithOptimizer Rec.startLearning
  cases hc : T.create with
  | error e =>
    refine .inr ⟨e, rfl, ?_⟩
    exact stateAfter_error_mono T (n := 0) hc (Nat.zero_le _)
  | ok s₀ =>
    have h := loop_no_evaluator T (⟨none, none, r.trainEpochs, 5, 5⟩ : Setup σ S) rfl (by show 0 < 5; decide)
      r.trainEpochs 0 ⟨{ r with trainer := some s₀ }, ⊥, 0, []⟩ s₀ hc rfl rfl
    simp only
    revert h
    rcases loop T (⟨none, none, r.trainEpochs, 5, 5⟩ : Setup σ S) r.trainEpochs 0
      ⟨{ r with trainer := some s₀ }, ⊥, 0, []⟩ with ⟨st, o⟩
    cases o with
    | error e =>
      rintro ⟨n, hn, s, hs, he⟩
      refine .inr ⟨e, rfl, stateAfter_error_mono T (n := n + 1) ?_ (by omega)⟩
      show stateAfter T.create T.runEpoch (n + 1) = _
      rw [stateAfter, show stateAfter T.create T.runEpoch n = .ok s from hs]
      exact he
    | ok u =>
      rintro ⟨s', hs', hm, hlog⟩
      rw [Nat.zero_add] at hs' hlog
      refine .inl ⟨s', hs', ?_⟩
      simp only [hm, hlog]

/-- C53 (no learnt epochs).  A new recommender has no learnt number of epochs and no saved state, and
training with a fixed number of epochs adds none: `learnt_config` then has no `train_epochs`. -/
theorem C53_no_learnt_epochs (T : TrainerOps σ β) (n : Nat)
    (h : (learn (S := S) T (Rec.new n)).2 = .ok ()) :
    (learn (S := S) T (Rec.new n)).1.1.learntEpochs = none ∧
      (learn (S := S) T (Rec.new n)).1.1.bestState = none := by
  rcases C53_learn (S := S) T (Rec.new n) with ⟨st, -, hl⟩ | ⟨e, he, -⟩
  · rw [hl]; exact ⟨rfl, rfl⟩
  · rw [he] at h; cases h

example : (learn (S := Fin 100) countingOps (Rec.new 4)).2 = .ok () := rfl

/-- C53 (retraining).  Let the trainer be deterministic (the same `T`).  If early stopping on a recommender
that was not trained before returns and reports `train_epochs = e`, then `learn()` of any recommender with
`train_epochs = e` returns with the trainer in the very state that early stopping saved and loaded again. -/
theorem C53_retrain (T : TrainerOps σ β) (U : Setup σ S) (f : Nat → σ → Except Err (Option S))
    (hU : U.evaluator = some f) (r r' r₂ : Rec σ β) (hr : r.bestState = none) (log : List (Event S))
    (h : learnWithOptimizer T U r = ((r', log), .ok ())) (he : r'.learntEpochs = some r₂.trainEpochs) :
    ∃ st last, learn (S := S) T r₂ =
        (({ r₂ with trainer := some st }, (List.range r₂.trainEpochs).map .epoch), .ok ()) ∧
      T.after r₂.trainEpochs = .ok st ∧ T.after (epochsOf log).length = .ok last ∧
      r'.bestState = some (T.save st) ∧ r'.trainer = some (T.load (T.save st) last) := by
  obtain ⟨k, s, st, last, -, -, -, h4, h4', h5, h6, h7, -⟩ := C51_best_state T U f hU r r' hr log h
  rw [h5] at he
  have hk := Option.some.inj he
  rcases C53_learn (S := S) T r₂ with ⟨st', hst', hl⟩ | ⟨e, -, hst'⟩
  · rw [← hk, h4] at hst'
    obtain rfl := Except.ok.inj hst'
    exact ⟨st, last, hl, hk ▸ h4, h4', h6, h7⟩
  · rw [← hk, h4] at hst'; simp at hst'

/-- C53 (retraining, observable form).  If loading a saved state restores what can be observed of the
trainer, the retrained recommender and the tuned one are observably equal. -/
theorem C53_retrain_view {O : Type} (view : σ → O) (T : TrainerOps σ β)
    (hview : ∀ s last, view (T.load (T.save s) last) = view s) (U : Setup σ S)
    (f : Nat → σ → Except Err (Option S)) (hU : U.evaluator = some f) (r r' r₂ : Rec σ β)
    (hr : r.bestState = none) (log : List (Event S))
    (h : learnWithOptimizer T U r = ((r', log), .ok ())) (he : r'.learntEpochs = some r₂.trainEpochs) :
    ∃ t t', r'.trainer = some t ∧ (learn (S := S) T r₂).1.1.trainer = some t' ∧
      (learn (S := S) T r₂).2 = .ok () ∧ view t = view t' := by
  obtain ⟨st, last, h1, -, -, -, h3⟩ := C53_retrain T U f hU r r' r₂ hr log h he
  exact ⟨_, st, h3, by rw [h1], by rw [h1], hview _ _⟩

/-- the tuned recommender of the first example, retrained -/
example : ∃ r' log, learnWithOptimizer countingOps exampleSetup (Rec.new 128) = ((r', log), .ok ()) ∧
    r'.learntEpochs = some (Rec.new (σ := Nat) (β := Nat) 4).trainEpochs ∧
    (learn (S := Fin 100) countingOps (Rec.new 4)).1.1.trainer = some 4 := ⟨_, _, rfl, rfl, rfl⟩

end Irspack.EarlyStop
