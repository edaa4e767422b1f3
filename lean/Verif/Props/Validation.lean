import Verif.Proofs.Validation
import Verif.Spec.Validation
import Verif.Props.EarlyStop
import Verif.Props.MultVAE

/-!
# C85: validating during training

Does it matter for what is learnt that the model is evaluated while it is trained?  For trainers that are not
changed by scoring it does not; the trainer of Mult-VAE is.
-/

namespace Irspack.EarlyStop

open Spec.EarlyStop

variable {σ β S : Type} [LinearOrder S] [OrderBot S] [Neg S]

/-- C85 (effects that training does not see).  Let `core` be a part of the trainer's state that evaluating
leaves alone, and let epochs, scores and saved states depend on this part only.  If `learn_with_optimizer`
returns on a recommender that was not trained before, and reports `train_epochs = e`, then `learn()` of any
recommender with `train_epochs = e` returns with a trainer whose saved form is the selected one, the one
loaded into the tuned recommender. -/
theorem C85_retrain {κ : Type} (core : σ → κ) (T : TrainerOps σ β) (U : WatchedSetup σ S)
    (hepoch : ∀ k s s', core s = core s' → (T.runEpoch k s).map core = (T.runEpoch k s').map core)
    (hscore : ∀ k s s', core s = core s' → (U.evaluator k s).1 = (U.evaluator k s').1)
    (hkeep : ∀ k s, core (U.evaluator k s).2 = core s)
    (hsave : ∀ s s', core s = core s' → T.save s = T.save s') (r r' r₂ : Rec σ β)
    (hr : r.bestState = none) (log : List (Event S)) (h : watchedLearn T U r = ((r', log), .ok ()))
    (he : r'.learntEpochs = some r₂.trainEpochs) :
    ∃ st last, learn (S := S) T r₂ =
        (({ r₂ with trainer := some st }, (List.range r₂.trainEpochs).map .epoch), .ok ()) ∧
      r'.bestState = some (T.save st) ∧ r'.trainer = some (T.load (T.save st) last) := by
  let U' : WatchedSetup σ S := ⟨fun k s => ((U.evaluator k s).1, s), U.shouldPrune, U.maxEpoch,
    U.validateEpoch, U.degradationMax⟩
  have hstep : KeepStep T T U U' (fun _ s s' => core s = core s') (fun _ s s' => core s = core s') := by
    refine ⟨rfl, rfl, rfl, rfl, ?_, ?_, fun _ _ _ h _ => h, ?_⟩
    · cases hc : T.create with
      | error e => exact .inl ⟨e, rfl, rfl⟩
      | ok s => exact .inr ⟨s, s, rfl, rfl, rfl⟩
    · intro k s s' hc
      have hm := hepoch k s s' hc
      cases h1 : T.runEpoch k s with
      | error e =>
        rw [h1] at hm
        cases h2 : T.runEpoch k s' with
        | error e' =>
          rw [h2] at hm
          have hee : e = e' := by simpa [Except.map] using hm
          exact .inl ⟨e, rfl, by rw [hee]⟩
        | ok t' => rw [h2] at hm; simp [Except.map] at hm
      | ok t =>
        rw [h1] at hm
        cases h2 : T.runEpoch k s' with
        | error e' => rw [h2] at hm; simp [Except.map] at hm
        | ok t' =>
          rw [h2] at hm
          exact .inr ⟨t, t', rfl, rfl, by simpa [Except.map] using hm⟩
    · intro k s s' hc _
      have hcore : core (U.evaluator k s).2 = core s' := (hkeep k s).trans hc
      exact ⟨hscore k s s' hc, fun _ _ => ⟨hcore, hsave _ _ hcore⟩⟩
  obtain ⟨hlog, hout, hbest, hlearnt⟩ := watchedLearn_kept hstep r r rfl rfl rfl
  rw [watchedLearn_quiet T U' (fun _ _ => rfl)] at hlog hout hbest hlearnt
  rw [h] at hlog hout hbest hlearnt
  rcases hp : learnWithOptimizer T U'.quiet r with ⟨⟨r₁, log₁⟩, o⟩
  rw [hp] at hlog hout hbest hlearnt
  simp only at hlog hout hbest hlearnt
  subst hout
  obtain ⟨st, -, h1, -, -, h2, -⟩ := C53_retrain T U'.quiet _ rfl r r₁ r₂ hr log₁ hp (hlearnt ▸ he)
  obtain ⟨b, last, hb, ht⟩ := watchedLearn_loaded T U r r' log h
  have hbst : b = T.save st := by
    rw [hbest, h2] at hb
    exact (Option.some.inj hb).symm
  exact ⟨st, last, h1, hbest.trans h2, hbst ▸ ht⟩

/-- C85 (silent scoring).  In particular for a trainer that scoring leaves as it is, as those of iALS and
BPR: how often, on what and with what outcome the model is validated has no influence on the state after a
given number of epochs, so retraining with the reported number reproduces the selected state. -/
theorem C85_silent_scoring (T : TrainerOps σ β) (U : WatchedSetup σ S)
    (hsilent : ∀ k s, (U.evaluator k s).2 = s) (r r' r₂ : Rec σ β) (hr : r.bestState = none)
    (log : List (Event S)) (h : watchedLearn T U r = ((r', log), .ok ()))
    (he : r'.learntEpochs = some r₂.trainEpochs) :
    ∃ st last, learn (S := S) T r₂ =
        (({ r₂ with trainer := some st }, (List.range r₂.trainEpochs).map .epoch), .ok ()) ∧
      r'.bestState = some (T.save st) ∧ r'.trainer = some (T.load (T.save st) last) :=
  C85_retrain id T U (fun _ _ _ h => by cases h; rfl) (fun _ _ _ h => by cases h; rfl)
    hsilent (fun _ _ h => by cases h; rfl) r r' r₂ hr log h he

/-- the validation scores 3, 5, 7, 7, 2 of the example of C51, by an evaluator that counts its calls in the
second component of the trainer's state -/
def countedSetup : WatchedSetup (Nat × Nat) (Fin 100) :=
  ⟨fun k s => (listEvaluator 2 [some 3, some 5, some 7, some 7, some 2] k s.1, (s.1, s.2 + 1)),
    none, 10, 2, 5⟩

/-- a trainer that counts epochs in the first component -/
def countedOps : TrainerOps (Nat × Nat) Nat := ⟨.ok (0, 0), fun _ s => .ok (s.1 + 1, s.2), Prod.fst,
  fun b s => (b, s.2)⟩

example : ∃ r' log, watchedLearn countedOps countedSetup (Rec.new 128) = ((r', log), .ok ()) ∧
    r'.learntEpochs = some 6 ∧ r'.trainer = some (6, 5) := ⟨_, _, rfl, rfl, rfl⟩

end Irspack.EarlyStop

namespace Irspack.MultVAE

open Spec.MultVAE Spec.Score Spec.Validation Irspack.Score EarlyStop Spec.EarlyStop

variable {O S : Type} [LinearOrder S] [OrderBot S] [Neg S]

/-! ## Keys -/

theorem update_keys (cfg : Config) (X : CSR ℝ) (upd : Params → Nat → O → List (Nat → ℝ) → ℝ → Params × O)
    (s t : State O) (users : List Nat) (h : update cfg X upd s users = .ok t) : t.keys = s.keys + 1 := by
  unfold update at h
  split_ifs at h
  simp only [Except.ok.injEq] at h
  rw [← h]

theorem foldlM_keys (cfg : Config) (X : CSR ℝ) (upd : Params → Nat → O → List (Nat → ℝ) → ℝ → Params × O) :
    ∀ (bs : List (List Nat)) (s t : State O), bs.foldlM (update cfg X upd) s = .ok t →
      t.keys = s.keys + bs.length := by
  intro bs
  induction bs with
  | nil => intro s t h; simp only [List.foldlM_nil, pure, Except.pure, Except.ok.injEq] at h; rw [← h]; rfl
  | cons b bs ih =>
    intro s t h
    rw [List.foldlM_cons] at h
    cases hu : update cfg X upd s b with
    | error e => rw [hu] at h; cases h
    | ok s' =>
      rw [hu] at h
      rw [ih s' t h, update_keys cfg X upd s s' b hu, List.length_cons]
      omega

theorem runEpoch_keys (cfg : Config) (X : CSR ℝ) (upd : Params → Nat → O → List (Nat → ℝ) → ℝ → Params × O)
    (order : List Nat) (s t : State O) (h : runEpoch cfg X upd order s = .ok t) :
    t.keys = s.keys + batchCount order.length cfg.size := by
  rw [foldlM_keys cfg X upd _ s t h, length_minibatches]
  rfl

theorem runEpoch_ok (cfg : Config) (X : CSR ℝ) (upd : Params → Nat → O → List (Nat → ℝ) → ℝ → Params × O)
    (order : List Nat) (s : State O) (hs : 0 < cfg.size) (ha : 0 < cfg.annealEnd)
    (ho : order.Perm (List.range X.nrows)) : ∃ t, runEpoch cfg X upd order s = .ok t := by
  obtain ⟨b, st, -, -, -, -, h, -⟩ := C63_epoch cfg X upd order s hs ha ho
  exact ⟨_, h⟩

theorem watchBlocks_state (cfg : Config) (nItems : Nat) : ∀ (bs : List (CSR ℝ)) (s : State O) (ds : List (Dense ℝ)),
    (watchBlocks cfg nItems bs s).1 = .ok ds →
    (watchBlocks cfg nItems bs s).2 =
      { s with keys := s.keys + (bs.map (fun b => batchCount b.nrows cfg.size)).sum } := by
  intro bs
  induction bs with
  | nil => intro s ds _; rfl
  | cons b bs ih =>
    intro s ds h
    unfold watchBlocks at h ⊢
    cases hc : coldScores cfg nItems s b with
    | error e => rw [hc] at h; cases h
    | ok r =>
      obtain ⟨d, s'⟩ := r
      rw [hc] at h
      simp only at h ⊢
      have hs' : s' = { s with keys := s.keys + batchCount b.nrows cfg.size } := by
        unfold coldScores at hc
        split_ifs at hc
        simp only [Except.ok.injEq, Prod.mk.injEq] at hc
        rw [← hc.2, length_minibatches]
        rfl
      rcases hw : watchBlocks cfg nItems bs s' with ⟨o, s''⟩
      rw [hw] at h
      cases o with
      | error e => cases h
      | ok ds' =>
        have := ih s' ds' (by rw [hw])
        rw [hw] at this
        simp only at this ⊢
        rw [this, hs']
        simp [Nat.add_assoc]

/-- scores do not depend on keys, optimiser or counter -/
theorem watchBlocks_scores (cfg : Config) (nItems : Nat) : ∀ (bs : List (CSR ℝ)) (s s' : State O),
    s.params = s'.params → (watchBlocks cfg nItems bs s).1 = (watchBlocks cfg nItems bs s').1 := by
  intro bs
  induction bs with
  | nil => intro s s' _; rfl
  | cons b bs ih =>
    intro s s' hp
    unfold watchBlocks
    by_cases h1 : b.rows = []
    · have e1 : ∀ t : State O, coldScores cfg nItems t b = .error .valueError := fun t => by
        unfold coldScores; rw [if_pos h1]
      rw [e1, e1]
    by_cases h2 : b.cols ≠ nItems
    · have e1 : ∀ t : State O, coldScores cfg nItems t b = .error .valueError := fun t => by
        unfold coldScores; rw [if_neg h1, if_pos h2]
      rw [e1, e1]
    have e1 : ∀ t : State O, coldScores cfg nItems t b =
        .ok (⟨nItems, (minibatches cfg.size b.rows).flatMap
          (fun l => l.map (fun r => scoreRow t.params nItems (denseRow r)))⟩,
          { t with keys := t.keys + (minibatches cfg.size b.rows).length }) := fun t => by
      unfold coldScores; rw [if_neg h1, if_neg h2]
    rw [e1 s, e1 s']
    simp only
    have hi := ih { s with keys := s.keys + (minibatches cfg.size b.rows).length }
      { s' with keys := s'.keys + (minibatches cfg.size b.rows).length } hp
    rcases hw : watchBlocks cfg nItems bs { s with keys := s.keys + (minibatches cfg.size b.rows).length }
      with ⟨o, t⟩
    rcases hw' : watchBlocks cfg nItems bs { s' with keys := s'.keys + (minibatches cfg.size b.rows).length }
      with ⟨o', t'⟩
    rw [hw, hw'] at hi
    simp only at hi
    subst hi
    cases o with
    | error e => rfl
    | ok ds => rw [hp]

theorem sum_map_range (f : Nat → Nat) (n : Nat) : ((List.range n).map f).sum = ∑ c ∈ Finset.range n, f c := by
  induction n with
  | zero => rfl
  | succ n ih => rw [List.range_succ, List.map_append, List.sum_append, ih, Finset.sum_range_succ]; simp

theorem validationBlocks_keys (X : CSR ℝ) (offset n mb size : Nat) (hn : offset + n ≤ X.nrows) :
    ((validationBlocks X offset n mb).map (fun b => batchCount b.nrows size)).sum =
      keysPerValidation n mb size := by
  unfold validationBlocks starts keysPerValidation
  rw [List.map_map, List.map_map, sum_map_range]
  refine Finset.sum_congr rfl fun c _ => ?_
  have hl : (List.take (min mb (n - c * mb)) (List.drop (offset + c * mb) X.rows)).length =
      min mb (n - c * mb) := by
    rw [List.length_take, List.length_drop]
    have : X.rows.length = X.nrows := rfl
    omega
  show batchCount (List.take (min mb (n - c * mb)) (List.drop (offset + c * mb) X.rows)).length size = _
  rw [hl]

/-! ## Training with validations -/

section
variable (cfg : Config) (X : CSR ℝ) (init : Params) (opt : O)
  (upd : Params → Nat → O → List (Nat → ℝ) → ℝ → Params × O) (orders : Nat → List Nat)

/-- the trainer whose epoch `k` begins with key `first k`, whatever was taken before -/
noncomputable def keyedOps (first : Nat → Nat) : TrainerOps (State O) Params :=
  { vaeOps cfg X init opt upd orders with
    runEpoch := fun k s => runEpoch cfg X upd (orders k) { s with keys := first k } }

theorem keyed_after (hs : 0 < cfg.size) (first : Nat → Nat) (n : Nat) (st : State O)
    (h : (keyedOps cfg X init opt upd orders first).after n = .ok st) :
    TrainedWithKeys cfg X init opt upd orders first n st.params := by
  have hc : (keyedOps cfg X init opt upd orders first).create = .ok ⟨init, opt, 0, 1⟩ := by
    show create cfg init opt = _
    unfold create
    rw [if_neg (by omega)]
  refine ⟨fun k => match (keyedOps cfg X init opt upd orders first).after k with
    | .ok s => s
    | .error _ => ⟨init, opt, 0, 1⟩, ?_, ?_, ?_⟩
  · show (match (keyedOps cfg X init opt upd orders first).create with
      | .ok s => s
      | .error _ => _) = _
    rw [hc]
  · intro k hk
    cases h1 : (keyedOps cfg X init opt upd orders first).after k with
    | error e =>
      have := stateAfter_error_mono (keyedOps cfg X init opt upd orders first) (n := k) h1 (Nat.le_of_lt hk)
      rw [show (keyedOps cfg X init opt upd orders first).after n = .error e from this] at h
      cases h
    | ok s =>
      have hsucc : (keyedOps cfg X init opt upd orders first).after (k + 1) =
          runEpoch cfg X upd (orders k) { s with keys := first k } := by
        show stateAfter _ _ (k + 1) = _
        rw [stateAfter, show stateAfter _ _ k = .ok s from h1]
        rfl
      cases h2 : (keyedOps cfg X init opt upd orders first).after (k + 1) with
      | error e =>
        have := stateAfter_error_mono (keyedOps cfg X init opt upd orders first) (n := k + 1) h2 hk
        rw [show (keyedOps cfg X init opt upd orders first).after n = .error e from this] at h
        cases h
      | ok s' => simp only [h1, h2]; exact hsucc.symm.trans h2
  · simp only [h]

/-- C85 (which keys).  Let `learn_with_optimizer` of a Mult-VAE recommender return with
`train_epochs = e`.  Then the parameters it selects and loads are those of a training in which epoch `k`
begins `(k / validate_epoch) * keysPerValidation` keys later than it would without validations: every
validation takes keys that the next updates would have used. -/
theorem C85_multvae_keys (hs : 0 < cfg.size) (offset n mb : Nat) (hn : offset + n ≤ X.nrows)
    (horders : ∀ k, (orders k).Perm (List.range X.nrows))
    (metric : Nat → List (Dense ℝ) → Except Err (Option S)) (U : WatchedSetup (State O) S)
    (hU : U.evaluator = vaeWatch cfg X offset n mb metric) (r r' : Rec (State O) Params)
    (hr : r.bestState = none) (log : List (Event S))
    (h : watchedLearn (vaeOps cfg X init opt upd orders) U r = ((r', log), .ok ())) :
    ∃ e p t, r'.learntEpochs = some e ∧ r'.bestState = some p ∧ r'.trainer = some t ∧ t.params = p ∧
      TrainedWithKeys cfg X init opt upd orders
        (fun k => 1 + k * batchCount X.nrows cfg.size +
          k / U.validateEpoch * keysPerValidation n mb cfg.size) e p := by
  set b := batchCount X.nrows cfg.size with hb
  set m := keysPerValidation n mb cfg.size with hm
  set first : Nat → Nat := fun k => 1 + k * b + k / U.validateEpoch * m with hfirst
  let T' := keyedOps cfg X init opt upd orders first
  let U' : WatchedSetup (State O) S := ⟨fun k s => ((U.evaluator k s).1, s), U.shouldPrune, U.maxEpoch,
    U.validateEpoch, U.degradationMax⟩
  have hlen : ∀ k, (orders k).length = X.nrows := fun k => by rw [(horders k).length_eq, List.length_range]
  have hstep : KeepStep (vaeOps cfg X init opt upd orders) T' U U'
      (fun k s s' => s = { s' with keys := first k })
      (fun k s s' => s.params = s'.params ∧ s.opt = s'.opt ∧ s.count = s'.count ∧
        s.keys = 1 + (k + 1) * b + k / U.validateEpoch * m) := by
    refine ⟨rfl, rfl, rfl, rfl, ?_, ?_, ?_, ?_⟩
    · refine .inr ⟨⟨init, opt, 0, 1⟩, ⟨init, opt, 0, 1⟩, ?_, ?_, ?_⟩
      · show create cfg init opt = _
        unfold create
        rw [if_neg (by omega)]
      · show create cfg init opt = _
        unfold create
        rw [if_neg (by omega)]
      · simp [hfirst]
    · intro k s s' hk
      have he : (vaeOps cfg X init opt upd orders).runEpoch k s = T'.runEpoch k s' := by rw [hk]; rfl
      cases h1 : T'.runEpoch k s' with
      | error e => exact .inl ⟨e, he.trans h1, rfl⟩
      | ok t =>
        refine .inr ⟨t, t, he.trans h1, rfl, rfl, rfl, rfl, ?_⟩
        have hkeys := runEpoch_keys cfg X upd (orders k) _ t h1
        rw [hkeys, hlen]
        show 1 + k * b + k / U.validateEpoch * m + b = _
        rw [Nat.add_mul]
        omega
    · rintro k s s' ⟨h1, h2, h3, h4⟩ hk
      have hdiv : (k + 1) / U.validateEpoch = k / U.validateEpoch := by
        rw [Nat.succ_div, if_neg (by rw [Nat.dvd_iff_mod_eq_zero]; exact hk)]
        rfl
      obtain ⟨p, o, c, ks⟩ := s
      obtain ⟨p', o', c', ks'⟩ := s'
      simp only at h1 h2 h3 h4
      simp only [hfirst, hdiv, h1, h2, h3, h4]
    · rintro k s s' ⟨h1, h2, h3, h4⟩ hk
      have hsc : (U.evaluator k s).1 = (U.evaluator k s').1 := by
        rw [hU]
        have := watchBlocks_scores cfg X.cols (validationBlocks X offset n mb) s s' h1
        unfold vaeWatch
        rcases hw : watchBlocks cfg X.cols (validationBlocks X offset n mb) s with ⟨o, t⟩
        rcases hw' : watchBlocks cfg X.cols (validationBlocks X offset n mb) s' with ⟨o', t'⟩
        rw [hw, hw'] at this
        simp only at this
        subst this
        cases o <;> rfl
      refine ⟨hsc, fun sc hok => ?_⟩
      have hst : (U.evaluator k s).2 = { s with keys := s.keys + m } := by
        rw [hU] at hok ⊢
        unfold vaeWatch at hok ⊢
        rcases hw : watchBlocks cfg X.cols (validationBlocks X offset n mb) s with ⟨o, t⟩
        rw [hw] at hok
        cases o with
        | error e => cases hok
        | ok ds =>
          have := watchBlocks_state cfg X.cols (validationBlocks X offset n mb) s ds (by rw [hw])
          rw [hw, validationBlocks_keys X offset n mb cfg.size hn] at this
          exact this
      have hdiv : (k + 1) / U.validateEpoch = k / U.validateEpoch + 1 := by
        rw [Nat.succ_div, if_pos (Nat.dvd_of_mod_eq_zero hk)]
      rw [hst]
      refine ⟨?_, h1⟩
      obtain ⟨p, o, c, ks⟩ := s
      obtain ⟨p', o', c', ks'⟩ := s'
      simp only at h1 h2 h3 h4
      show (⟨p, o, c, ks + m⟩ : State O) = ⟨p', o', c', first (k + 1)⟩
      simp only [hfirst, hdiv, h1, h2, h3, h4, Nat.add_mul]
      congr 1
      omega
  obtain ⟨hlog, hout, hbest, hlearnt⟩ := watchedLearn_kept hstep r r rfl rfl rfl
  rw [watchedLearn_quiet T' U' (fun _ _ => rfl)] at hlog hout hbest hlearnt
  rw [h] at hlog hout hbest hlearnt
  rcases hp : learnWithOptimizer T' U'.quiet r with ⟨⟨r₁, log₁⟩, o⟩
  rw [hp] at hlog hout hbest hlearnt
  simp only at hlog hout hbest hlearnt
  subst hout
  obtain ⟨k, s, st, last, -, -, -, h4, -, h5, h6, -, -⟩ := C51_best_state T' U'.quiet _ rfl r r₁ hr log₁ hp
  obtain ⟨b', last', hb', ht⟩ := watchedLearn_loaded _ U r r' log h
  have hbst : b' = st.params := by
    rw [hbest, h6] at hb'
    exact (Option.some.inj hb').symm
  exact ⟨k + 1, st.params, _, hlearnt.trans h5, hbest.trans h6, ht, hbst,
    keyed_after cfg X init opt upd orders hs first (k + 1) st h4⟩

/-- C85 (without validations).  `learn()` of a Mult-VAE recommender returns with the parameters of the
training in which the updates use the keys 1, 2, 3, … -/
theorem C85_multvae_learn (hs : 0 < cfg.size) (ha : 0 < cfg.annealEnd)
    (horders : ∀ k, (orders k).Perm (List.range X.nrows)) (r : Rec (State O) Params) :
    ∃ t, learn (S := S) (vaeOps cfg X init opt upd orders) r =
        (({ r with trainer := some t }, (List.range r.trainEpochs).map .epoch), .ok ()) ∧
      TrainedWithKeys cfg X init opt upd orders (fun k => 1 + k * batchCount X.nrows cfg.size)
        r.trainEpochs t.params := by
  have hlen : ∀ k, (orders k).length = X.nrows := fun k => by rw [(horders k).length_eq, List.length_range]
  have hrun : ∀ n, ∃ t, (vaeOps cfg X init opt upd orders).after n = .ok t ∧
      t.keys = 1 + n * batchCount X.nrows cfg.size ∧
      (keyedOps cfg X init opt upd orders (fun k => 1 + k * batchCount X.nrows cfg.size)).after n = .ok t := by
    intro n
    induction n with
    | zero =>
      have hc : create cfg init opt = .ok ⟨init, opt, 0, 1⟩ := by
        unfold create
        rw [if_neg (by omega)]
      exact ⟨⟨init, opt, 0, 1⟩, hc, by simp, hc⟩
    | succ n ih =>
      obtain ⟨t, h1, hk, h2⟩ := ih
      obtain ⟨t', ht'⟩ := runEpoch_ok cfg X upd (orders n) t hs ha (horders n)
      refine ⟨t', ?_, ?_, ?_⟩
      · show stateAfter _ _ (n + 1) = _
        rw [stateAfter, show stateAfter _ _ n = .ok t from h1]
        exact ht'
      · rw [runEpoch_keys cfg X upd _ _ _ ht', hlen, hk, Nat.add_mul]
        omega
      · show stateAfter _ _ (n + 1) = _
        rw [stateAfter, show stateAfter _ _ n = .ok t from h2]
        show runEpoch cfg X upd (orders n) { t with keys := 1 + n * batchCount X.nrows cfg.size } = _
        rw [← hk]
        exact ht'
  obtain ⟨t, h1, -, h2⟩ := hrun r.trainEpochs
  rcases C53_learn (S := S) (vaeOps cfg X init opt upd orders) r with ⟨st, hst, hl⟩ | ⟨e, -, he⟩
  · rw [h1] at hst
    obtain rfl := Except.ok.inj hst
    exact ⟨t, hl, keyed_after cfg X init opt upd orders hs _ _ t h2⟩
  · rw [h1] at he; cases he

end

/-- what is trained depends only on the keys used -/
theorem trainedWithKeys_unique (cfg : Config) (X : CSR ℝ) (init : Params) (opt : O)
    (upd : Params → Nat → O → List (Nat → ℝ) → ℝ → Params × O) (orders : Nat → List Nat)
    (first first' : Nat → Nat) (n : Nat) (hf : ∀ k < n, first k = first' k) (p p' : Params)
    (h : TrainedWithKeys cfg X init opt upd orders first n p)
    (h' : TrainedWithKeys cfg X init opt upd orders first' n p') : p = p' := by
  obtain ⟨st, h0, h1, rfl⟩ := h
  obtain ⟨st', h0', h1', rfl⟩ := h'
  have : ∀ k ≤ n, st k = st' k := by
    intro k
    induction k with
    | zero => intro _; rw [h0, h0']
    | succ k ih =>
      intro hk
      have e1 := h1 k hk
      have e2 := h1' k hk
      rw [ih (Nat.le_of_succ_le hk), hf k hk, e2] at e1
      exact (Except.ok.inj e1).symm
  rw [this n le_rfl]

/-- ... and not even on them if the updates do not use them -/
theorem trainedWithKeys_ignored (cfg : Config) (X : CSR ℝ) (init : Params) (opt : O)
    (upd : Params → Nat → O → List (Nat → ℝ) → ℝ → Params × O)
    (hu : ∀ p k k' o l c, upd p k o l c = upd p k' o l c) (orders : Nat → List Nat)
    (first first' : Nat → Nat) (n : Nat) (p p' : Params)
    (h : TrainedWithKeys cfg X init opt upd orders first n p)
    (h' : TrainedWithKeys cfg X init opt upd orders first' n p') : p = p' := by
  have hupd : ∀ (us : List Nat) (s s' t t' : State O), s.params = s'.params → s.opt = s'.opt →
      s.count = s'.count → update cfg X upd s us = .ok t → update cfg X upd s' us = .ok t' →
      t.params = t'.params ∧ t.opt = t'.opt ∧ t.count = t'.count := by
    intro us s s' t t' h1 h2 h3 ht ht'
    unfold update at ht ht'
    split_ifs at ht ht' with hz
    simp only [Except.ok.injEq] at ht ht'
    rw [← ht, ← ht', h1, h2, h3, hu _ s.keys s'.keys]
    exact ⟨rfl, rfl, rfl⟩
  have hfold : ∀ (bs : List (List Nat)) (s s' t t' : State O), s.params = s'.params → s.opt = s'.opt →
      s.count = s'.count → bs.foldlM (update cfg X upd) s = .ok t →
      bs.foldlM (update cfg X upd) s' = .ok t' →
      t.params = t'.params ∧ t.opt = t'.opt ∧ t.count = t'.count := by
    intro bs
    induction bs with
    | nil =>
      intro s s' t t' h1 h2 h3 ht ht'
      simp only [List.foldlM_nil, pure, Except.pure, Except.ok.injEq] at ht ht'
      rw [← ht, ← ht']
      exact ⟨h1, h2, h3⟩
    | cons b bs ih =>
      intro s s' t t' h1 h2 h3 ht ht'
      rw [List.foldlM_cons] at ht ht'
      cases hx : update cfg X upd s b with
      | error e => rw [hx] at ht; cases ht
      | ok x =>
        cases hy : update cfg X upd s' b with
        | error e => rw [hy] at ht'; cases ht'
        | ok y =>
          rw [hx] at ht
          rw [hy] at ht'
          obtain ⟨a1, a2, a3⟩ := hupd b s s' x y h1 h2 h3 hx hy
          exact ih x y t t' a1 a2 a3 ht ht'
  obtain ⟨st, h0, h1, rfl⟩ := h
  obtain ⟨st', h0', h1', rfl⟩ := h'
  have : ∀ k ≤ n, (st k).params = (st' k).params ∧ (st k).opt = (st' k).opt ∧ (st k).count = (st' k).count := by
    intro k
    induction k with
    | zero => intro _; rw [h0, h0']; exact ⟨rfl, rfl, rfl⟩
    | succ k ih =>
      intro hk
      obtain ⟨a1, a2, a3⟩ := ih (Nat.le_of_succ_le hk)
      exact hfold (minibatches cfg.size (orders k)) { st k with keys := first k }
        { st' k with keys := first' k } _ _ a1 a2 a3 (h1 k hk) (h1' k hk)
  exact (this n le_rfl).1

/-- C85 (Mult-VAE).  Retraining with the reported number of epochs reproduces the selected parameters (given
the same shuffles) if the first validation was the best one, or if the updates use no random numbers.
(Partial: see the counterexample for the other cases.) -/
theorem C85_multvae_partial (cfg : Config) (X : CSR ℝ) (init : Params) (opt : O)
    (upd : Params → Nat → O → List (Nat → ℝ) → ℝ → Params × O) (orders : Nat → List Nat)
    (hs : 0 < cfg.size) (ha : 0 < cfg.annealEnd) (offset n mb : Nat) (hn : offset + n ≤ X.nrows)
    (horders : ∀ k, (orders k).Perm (List.range X.nrows))
    (metric : Nat → List (Dense ℝ) → Except Err (Option S)) (U : WatchedSetup (State O) S)
    (hU : U.evaluator = vaeWatch cfg X offset n mb metric) (r r' r₂ : Rec (State O) Params)
    (hr : r.bestState = none) (log : List (Event S))
    (h : watchedLearn (vaeOps cfg X init opt upd orders) U r = ((r', log), .ok ()))
    (he : r'.learntEpochs = some r₂.trainEpochs)
    (hcase : r₂.trainEpochs ≤ U.validateEpoch ∨ ∀ p k k' o l c, upd p k o l c = upd p k' o l c) :
    ∃ t, learn (S := S) (vaeOps cfg X init opt upd orders) r₂ =
        (({ r₂ with trainer := some t }, (List.range r₂.trainEpochs).map .epoch), .ok ()) ∧
      r'.bestState = some t.params ∧ ∃ t', r'.trainer = some t' ∧ t'.params = t.params := by
  obtain ⟨e, p, t', h1, h2, h3, h4, h5⟩ := C85_multvae_keys cfg X init opt upd orders hs offset n mb hn horders
    metric U hU r r' hr log h
  obtain ⟨t, hl, ht⟩ := C85_multvae_learn (S := S) cfg X init opt upd orders hs ha horders r₂
  rw [h1] at he
  have he := Option.some.inj he
  subst he
  have hp : p = t.params := by
    rcases hcase with hc | hc
    · refine trainedWithKeys_unique cfg X init opt upd orders _ _ r₂.trainEpochs (fun k hk => ?_) p _ h5 ht
      have : k / U.validateEpoch = 0 := Nat.div_eq_of_lt (by omega)
      simp only [this]
      omega
    · exact trainedWithKeys_ignored cfg X init opt upd hc orders _ _ r₂.trainEpochs p _ h5 ht
  exact ⟨t, hl, by rw [h2, hp], t', h3, by rw [h4, hp]⟩

/-! ## A run that cannot be reproduced -/

/-- one user, one item, minibatches of one -/
noncomputable def oneCfg : Config := ⟨1, 1, 1, 0⟩

/-- the user's interaction -/
noncomputable def oneX : CSR ℝ := ⟨1, [[(0, 1)]]⟩

/-- an update that depends on its key -/
noncomputable def addKey : Params → Nat → Unit → List (Nat → ℝ) → ℝ → Params × Unit :=
  fun p k _ _ _ => ({ p with decLast := { p.decLast with b := fun j => p.decLast.b j + k } }, ())

/-- the metric is better after the second epoch -/
def risingMetric : Nat → List (Dense ℝ) → Except Err (Option (Fin 100)) := fun k _ => .ok (some (if k = 0 then 3 else 5))

/-- validation after every epoch, two epochs -/
noncomputable def oneSetup : WatchedSetup (State Unit) (Fin 100) :=
  ⟨vaeWatch oneCfg oneX 0 1 1 risingMetric, none, 2, 1, 5⟩

/-- some parameters -/
noncomputable def noParams : Params := ⟨0, [], ⟨0, fun _ _ => 0, fun _ => 0⟩, [], ⟨0, fun _ _ => 0, fun _ => 0⟩⟩

theorem one_epoch (s : State Unit) : runEpoch oneCfg oneX addKey [0] s =
    .ok ⟨(addKey s.params s.keys () [] 0).1, (), s.count + 1, s.keys + 1⟩ := by
  have hm : minibatches oneCfg.size [0] = [[0]] := rfl
  have hz : ¬ totalAnneal oneCfg oneX.nrows = 0 := by
    norm_num [totalAnneal, oneCfg, oneX, CSR.nrows]
  have hu : update oneCfg oneX addKey s [0] =
      .ok ⟨(addKey s.params s.keys () [] 0).1, (), s.count + 1, s.keys + 1⟩ := by
    unfold update
    rw [if_neg hz]
    rfl
  unfold runEpoch
  rw [hm, List.foldlM_cons, hu]
  rfl

theorem one_watch (k : Nat) (s : State Unit) : vaeWatch oneCfg oneX 0 1 1 risingMetric k s =
    (.ok (some (if k = 0 then 3 else 5)), { s with keys := s.keys + 1 }) := by
  have hb : validationBlocks oneX 0 1 1 = [oneX] := rfl
  unfold vaeWatch
  rw [hb]
  unfold watchBlocks coldScores
  rw [if_neg (by simp [oneX]), if_neg (by simp)]
  rfl

/-- the two calls, with the updates written out -/
theorem one_ops : vaeOps oneCfg oneX noParams () addKey (fun _ => [0]) =
    ⟨.ok ⟨noParams, (), 0, 1⟩,
      fun _ s => .ok ⟨(addKey s.params s.keys () [] 0).1, (), s.count + 1, s.keys + 1⟩,
      fun s => s.params, fun p s => loadParams p s⟩ := by
  unfold vaeOps
  simp only [one_epoch]
  unfold create
  rw [if_neg (by simp [oneCfg])]

theorem one_setup : oneSetup =
    ⟨fun k s => (.ok (some (if k = 0 then 3 else 5)), { s with keys := s.keys + 1 }), none, 2, 1, 5⟩ := by
  have h : vaeWatch oneCfg oneX 0 1 1 risingMetric =
      fun k s => (.ok (some (if k = 0 then 3 else 5)), { s with keys := s.keys + 1 }) :=
    funext fun k => funext fun s => one_watch k s
  unfold oneSetup
  rw [h]

/-- C85 (Mult-VAE, not reproducible).  With the same data, the same initial parameters and the same shuffles:
validating after every epoch selects two epochs, and `learn()` with two epochs ends with other parameters,
because the validation in between took the key of the second update. -/
theorem C85_multvae_counterexample :
    ∃ (r' : Rec (State Unit) Params) (log : List (Event (Fin 100))) (t : State Unit),
      watchedLearn (vaeOps oneCfg oneX noParams () addKey (fun _ => [0])) oneSetup (Rec.new 128) =
        ((r', log), .ok ()) ∧ r'.learntEpochs = some 2 ∧
      (learn (S := Fin 100) (vaeOps oneCfg oneX noParams () addKey (fun _ => [0])) (Rec.new 2)).1.1.trainer =
        some t ∧ r'.bestState ≠ some t.params := by
  rw [one_ops, one_setup]
  refine ⟨_, _, _, rfl, rfl, rfl, ?_⟩
  intro hc
  have h := congrArg (fun p : Params => p.decLast.b 0) (Option.some.inj hc)
  norm_num [addKey, noParams] at h

/-- a run that can be reproduced: only one epoch, so that the first validation is the best -/
example : ∃ (r' : Rec (State Unit) Params) (log : List (Event (Fin 100))),
    watchedLearn (vaeOps oneCfg oneX noParams () addKey (fun _ => [0])) { oneSetup with maxEpoch := 1 }
      (Rec.new 128) = ((r', log), .ok ()) ∧ r'.learntEpochs = some 1 ∧ 1 ≤ oneSetup.validateEpoch := by
  rw [one_ops, one_setup]
  exact ⟨_, _, rfl, rfl, le_rfl⟩

end Irspack.MultVAE
