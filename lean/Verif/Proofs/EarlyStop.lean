import Mathlib.Tactic.Set
import Mathlib.Data.Nat.Basic
import Verif.Model.EarlyStop
import Verif.Spec.EarlyStop

/-! # Loop invariant of `learn_with_optimizer` -/

namespace Irspack.EarlyStop

open Spec.EarlyStop

section
variable {σ β S : Type} [LinearOrder S] [OrderBot S] [Neg S]

/-- the trainer state after `n` epochs -/
abbrev TrainerOps.after (T : TrainerOps σ β) (n : Nat) : Except Err σ := stateAfter T.create T.runEpoch n

/-- the score of the `j`-th validation -/
abbrev valScore (T : TrainerOps σ β) (f : Nat → σ → Except Err (Option S)) (v j : Nat) : Option S :=
  validationScore T.create T.runEpoch f v j

/-- the calls made during epoch `i`, if a validation takes place every `v` epochs with the scores `sc` -/
def epochEvents (v : Nat) (reporting : Bool) (sc : Nat → Option S) (i : Nat) : List (Event S) :=
  .epoch i :: if (i + 1) % v = 0 then
    .validate i (sc ((i + 1) / v)) ::
      if reporting then [.report ((sc ((i + 1) / v)).map (fun s => -s)) i] else []
  else []

/-- the calls made during the first `n` epochs -/
def traceUpTo (v : Nat) (reporting : Bool) (sc : Nat → Option S) (n : Nat) : List (Event S) :=
  (List.range n).flatMap (epochEvents v reporting sc)

omit [LinearOrder S] [OrderBot S] in
theorem traceUpTo_succ (v : Nat) (reporting : Bool) (sc : Nat → Option S) (n : Nat) :
    traceUpTo v reporting sc (n + 1) = traceUpTo v reporting sc n ++ epochEvents v reporting sc n := by
  simp [traceUpTo, List.range_succ]

section spec
omit [Neg S]

theorem isFirstBest_improves {sc : Nat → Option S} {m j : Nat} {s : S} (h : IsFirstBest sc m j s) :
    Improves sc j := by
  obtain ⟨h1, h2, h3, h4, h5⟩ := h
  exact ⟨s, h3, h4, fun i hi hij s' hs' => (h5 i hi (by omega) s' hs').2 hij⟩

theorem isFirstBest_not_improves {sc : Nat → Option S} {m j : Nat} {s : S} (h : IsFirstBest sc m j s)
    {i : Nat} (hi : j < i) (him : i ≤ m) : ¬ Improves sc i := by
  obtain ⟨h1, h2, h3, h4, h5⟩ := h
  rintro ⟨s', hs', -, hall⟩
  have := hall j h1 hi s h3
  exact absurd (h5 i (by omega) him s' hs').1 (not_le.mpr this)

theorem noneUsable_not_improves {sc : Nat → Option S} {m : Nat} (h : NoneUsable sc m) {i : Nat}
    (h1 : 1 ≤ i) (him : i ≤ m) : ¬ Improves sc i := by
  rintro ⟨s, hs, hb, -⟩
  rcases h i h1 him with h | h
  · rw [h] at hs; exact absurd hs (by simp)
  · rw [h] at hs; exact absurd (Option.some.inj hs) hb.ne

/-- best so far: number `j` (0 if there is none) with score `b` -/
def BestSoFar (sc : Nat → Option S) (m j : Nat) (b : S) : Prop :=
  (j = 0 ∧ b = ⊥ ∧ NoneUsable sc m) ∨ IsFirstBest sc m j b

theorem bestSoFar_le {sc : Nat → Option S} {m j : Nat} {b : S} (h : BestSoFar sc m j b) : j ≤ m := by
  rcases h with ⟨rfl, -, -⟩ | h
  · omega
  · exact h.2.1

theorem exhausted_iff {sc : Nat → Option S} {m j d : Nat} {b : S} (h : BestSoFar sc m j b) (hd : 1 ≤ d) :
    Exhausted sc d m ↔ d ≤ m - j := by
  rcases h with ⟨rfl, -, h⟩ | h
  · constructor
    · intro hx; have := hx.1; omega
    · intro hx
      exact ⟨by omega, fun i hi him => noneUsable_not_improves h (by omega) him⟩
  · have hj := h.2.1
    constructor
    · intro hx
      by_contra hcon
      exact hx.2 j (by have := hx.1; omega) hj (isFirstBest_improves h)
    · intro hx
      exact ⟨by omega, fun i hi him => isFirstBest_not_improves h (by omega) him⟩

theorem bestSoFar_exceeds {sc : Nat → Option S} {m j : Nat} {b : S} (h : BestSoFar sc m j b)
    (hx : exceeds (sc (m + 1)) b = true) :
    ∃ s, sc (m + 1) = some s ∧ IsFirstBest sc (m + 1) (m + 1) s := by
  unfold exceeds at hx
  cases hs : sc (m + 1) with
  | none => rw [hs] at hx; simp at hx
  | some s =>
    rw [hs] at hx
    simp only [decide_eq_true_eq] at hx
    refine ⟨s, rfl, by omega, Nat.le_refl _, hs, lt_of_le_of_lt bot_le hx, ?_⟩
    intro i hi him s' hs'
    rcases Nat.lt_or_ge m i with hmi | hmi
    · have : i = m + 1 := by omega
      subst this
      rw [hs] at hs'
      obtain rfl := Option.some.inj hs'
      exact ⟨le_refl _, fun h => absurd h (by omega)⟩
    · have hlt : s' < s := by
        rcases h with ⟨-, rfl, h⟩ | h
        · rcases h i hi hmi with h | h
          · rw [h] at hs'; simp at hs'
          · rw [h] at hs'; obtain rfl := Option.some.inj hs'; exact hx
        · exact lt_of_le_of_lt (h.2.2.2.2 i hi hmi s' hs').1 hx
      exact ⟨hlt.le, fun _ => hlt⟩

theorem bestSoFar_not_exceeds {sc : Nat → Option S} {m j : Nat} {b : S} (h : BestSoFar sc m j b)
    (hx : exceeds (sc (m + 1)) b = false) : BestSoFar sc (m + 1) j b := by
  unfold exceeds at hx
  rcases h with ⟨rfl, rfl, h⟩ | h
  · refine .inl ⟨rfl, rfl, fun i hi him => ?_⟩
    rcases Nat.lt_or_ge m i with hmi | hmi
    · have : i = m + 1 := by omega
      subst this
      cases hs : sc (m + 1) with
      | none => exact .inl rfl
      | some s =>
        rw [hs] at hx
        simp only [decide_eq_false_iff_not, not_lt, le_bot_iff] at hx
        exact .inr (by rw [hx])
    · exact h i hi hmi
  · obtain ⟨h1, h2, h3, h4, h5⟩ := h
    refine .inr ⟨h1, by omega, h3, h4, fun i hi him s' hs' => ?_⟩
    rcases Nat.lt_or_ge m i with hmi | hmi
    · have : i = m + 1 := by omega
      subst this
      rw [hs'] at hx
      simp only [decide_eq_false_iff_not, not_lt] at hx
      exact ⟨hx, fun h => absurd h (by omega)⟩
    · exact h5 i hi hmi s' hs'

end spec

variable (T : TrainerOps σ β) (U : Setup σ S) (f : Nat → σ → Except Err (Option S)) (r₀ : Rec σ β)

/-- What holds after `k` epochs, apart from the log. -/
structure Inv (k : Nat) (st : Loop σ β S) : Prop where
  state : ∃ s, T.after k = .ok s ∧ st.model.trainer = some s
  genuine : ∀ j, 1 ≤ j → j * U.validateEpoch ≤ k → ∃ s, T.after (j * U.validateEpoch) = .ok s ∧
    f (j * U.validateEpoch - 1) s = .ok (valScore T f U.validateEpoch j)
  best : ∃ j, BestSoFar (valScore T f U.validateEpoch) (k / U.validateEpoch) j st.best ∧
    st.degradation = k / U.validateEpoch - j ∧
    (j = 0 → st.model.bestState = r₀.bestState ∧ st.model.learntEpochs = r₀.learntEpochs) ∧
    (j ≠ 0 → ∃ s, T.after (j * U.validateEpoch) = .ok s ∧ st.model.bestState = some (T.save s) ∧
      st.model.learntEpochs = some (j * U.validateEpoch))
  epochs : st.model.trainEpochs = r₀.trainEpochs

/-- patience as the code understands it: 0 acts like 1 -/
def Setup.patience (U : Setup σ S) : Nat := max U.degradationMax 1

/-- trace for this setup -/
abbrev Setup.trace (U : Setup σ S) (n : Nat) : List (Event S) :=
  traceUpTo U.validateEpoch U.shouldPrune.isSome (valScore T f U.validateEpoch) n

/-- the pruner did not ask to stop after epoch `k`, if it was asked -/
def Setup.NotPruned (U : Setup σ S) (k : Nat) : Prop :=
  ∀ prune, U.shouldPrune = some prune → U.validateEpoch ∣ k + 1 → prune (U.trace T f (k + 1)) = false

theorem body_spec (hU : U.evaluator = some f) (hv : 0 < U.validateEpoch) (k : Nat) (st : Loop σ β S)
    (hI : Inv T U f r₀ k st) (hl : st.log = U.trace T f k) :
    match body T U k st with
    | (st', .next) => Inv T U f r₀ (k + 1) st' ∧ st'.log = U.trace T f (k + 1) ∧
        (U.validateEpoch ∣ k + 1 →
          ¬ Exhausted (valScore T f U.validateEpoch) U.patience ((k + 1) / U.validateEpoch)) ∧
        U.NotPruned T f k
    | (st', .stop) => Inv T U f r₀ (k + 1) st' ∧ U.validateEpoch ∣ k + 1 ∧
        Exhausted (valScore T f U.validateEpoch) U.patience ((k + 1) / U.validateEpoch) ∧
        st'.log = U.trace T f k ++
          [.epoch k, .validate k (valScore T f U.validateEpoch ((k + 1) / U.validateEpoch))]
    | (st', .raise e) =>
        (∃ s, T.after k = .ok s ∧ T.runEpoch k s = .error e) ∨
        (U.validateEpoch ∣ k + 1 ∧ ∃ s, T.after (k + 1) = .ok s ∧ f k s = .error e) ∨
        (e = .trialPruned ∧ Inv T U f r₀ (k + 1) st' ∧ U.validateEpoch ∣ k + 1 ∧
          ¬ Exhausted (valScore T f U.validateEpoch) U.patience ((k + 1) / U.validateEpoch) ∧
          st'.log = U.trace T f (k + 1) ∧ ∃ prune, U.shouldPrune = some prune ∧ prune st'.log = true) := by
  obtain ⟨s, hs, htr⟩ := hI.state
  unfold body Rec.runEpoch
  rw [htr]
  simp only
  cases hrun : T.runEpoch k s with
  | error e => exact .inl ⟨s, hs, hrun⟩
  | ok s' =>
    have hs' : T.after (k + 1) = .ok s' := by
      show stateAfter T.create T.runEpoch (k + 1) = _
      rw [stateAfter, show stateAfter T.create T.runEpoch k = .ok s from hs]
      exact hrun
    simp only
    rw [if_neg (by omega)]
    by_cases hmod : (k + 1) % U.validateEpoch = 0
    swap
    · -- no validation in this epoch
      rw [if_pos hmod]
      have hnd : ¬ U.validateEpoch ∣ k + 1 := fun h => hmod (Nat.mod_eq_zero_of_dvd h)
      have hdiv : (k + 1) / U.validateEpoch = k / U.validateEpoch := by
        rw [Nat.succ_div, if_neg hnd]; rfl
      refine ⟨⟨⟨s', hs', rfl⟩, ?_, ?_, hI.epochs⟩, ?_, fun h => absurd h hnd, fun _ _ h => absurd h hnd⟩
      · intro j hj hjk
        refine hI.genuine j hj ?_
        rcases Nat.lt_or_ge k (j * U.validateEpoch) with h | h
        · exact absurd ⟨j, by rw [Nat.mul_comm]; omega⟩ hnd
        · exact h
      · rw [hdiv]; exact hI.best
      · show st.log ++ [Event.epoch k] = U.trace T f (k + 1)
        rw [Setup.trace, traceUpTo_succ, hl, epochEvents, if_neg hmod]
    · rw [if_neg (by simpa using hmod), hU]
      simp only
      have hd : U.validateEpoch ∣ k + 1 := Nat.dvd_of_mod_eq_zero hmod
      cases hf : f k s' with
      | error e => exact .inr (.inl ⟨hd, s', hs', hf⟩)
      | ok score =>
        simp only
        set m := k / U.validateEpoch with hm
        have hdiv : (k + 1) / U.validateEpoch = m + 1 := by
          rw [Nat.succ_div, if_pos hd]
        have hmul : (m + 1) * U.validateEpoch = k + 1 := by
          rw [← hdiv]; exact Nat.div_mul_cancel hd
        have hsc : valScore T f U.validateEpoch (m + 1) = score := by
          unfold valScore validationScore
          rw [hmul]
          simp only [show stateAfter T.create T.runEpoch (k + 1) = .ok s' from hs', Nat.add_sub_cancel, hf]
        have hgen : ∀ j, 1 ≤ j → j * U.validateEpoch ≤ k + 1 → ∃ s, T.after (j * U.validateEpoch) = .ok s ∧
            f (j * U.validateEpoch - 1) s = .ok (valScore T f U.validateEpoch j) := by
          intro j hj hjk
          rcases Nat.lt_or_ge k (j * U.validateEpoch) with h | h
          · have hjm : j = m + 1 := by
              have : j * U.validateEpoch = (m + 1) * U.validateEpoch := by omega
              exact Nat.eq_of_mul_eq_mul_right hv this
            subst hjm
            refine ⟨s', by rw [hmul]; exact hs', ?_⟩
            rw [hsc, hmul]
            exact hf
          · exact hI.genuine j hj h
        obtain ⟨j, hbest, hdeg, hj0, hj1⟩ := hI.best
        have hjm := bestSoFar_le hbest
        rw [hdiv, hsc]
        have hlog : st.log ++ [Event.epoch k] ++ [.validate k score] =
            U.trace T f k ++ [.epoch k, .validate k score] := by rw [hl]; simp
        -- how the pruning step ends
        have hrep : ∀ st' : Loop σ β S, Inv T U f r₀ (k + 1) st' →
            st'.log = U.trace T f k ++ [.epoch k, .validate k score] →
            ¬ Exhausted (valScore T f U.validateEpoch) U.patience (m + 1) →
            match reportTrial U k score st' with
            | (st', .next) => Inv T U f r₀ (k + 1) st' ∧ st'.log = U.trace T f (k + 1) ∧
                (U.validateEpoch ∣ k + 1 →
                  ¬ Exhausted (valScore T f U.validateEpoch) U.patience (m + 1)) ∧ U.NotPruned T f k
            | (_, .stop) => False
            | (st', .raise e) => e = .trialPruned ∧ Inv T U f r₀ (k + 1) st' ∧
                st'.log = U.trace T f (k + 1) ∧ ∃ prune, U.shouldPrune = some prune ∧
                prune st'.log = true := by
          intro st' hI' hl' hne
          unfold reportTrial
          cases hp : U.shouldPrune with
          | none =>
            refine ⟨hI', ?_, fun _ => hne, fun prune h => absurd (hp.symm.trans h) (by simp)⟩
            rw [hl', Setup.trace, Setup.trace, traceUpTo_succ, epochEvents, if_pos hmod, hdiv, hsc, hp]
            rfl
          | some prune =>
            have htl : st'.log ++ [Event.report (score.map fun s => -s) k] = U.trace T f (k + 1) := by
              rw [hl', Setup.trace, Setup.trace, traceUpTo_succ, epochEvents, if_pos hmod, hdiv, hsc, hp]
              simp
            simp only
            cases hpr : prune (st'.log ++ [Event.report (score.map fun s => -s) k]) with
            | true =>
              rw [if_pos rfl]
              exact ⟨rfl, ⟨hI'.state, hI'.genuine, hI'.best, hI'.epochs⟩, htl, prune, rfl, hpr⟩
            | false =>
              rw [if_neg (by simp)]
              refine ⟨⟨hI'.state, hI'.genuine, hI'.best, hI'.epochs⟩, htl, fun _ => hne, ?_⟩
              intro prune' h _
              rw [hp] at h
              obtain rfl := Option.some.inj h
              rw [← htl]; exact hpr
        unfold judge
        cases hx : exceeds score st.best with
        | true =>
          rw [if_pos rfl]
          obtain ⟨sb, hsb, hfb⟩ := bestSoFar_exceeds hbest (by rw [hsc]; exact hx)
          have hI' : Inv T U f r₀ (k + 1)
              { st with
                model := { trainEpochs := st.model.trainEpochs, trainer := some s',
                           bestState := some (T.save s'), learntEpochs := some (k + 1) }
                best := score.getD ⊥
                degradation := 0
                log := st.log ++ [Event.epoch k] ++ [.validate k score] } := by
            refine ⟨⟨s', hs', rfl⟩, hgen, ⟨m + 1, ?_, ?_, fun h => absurd h (by omega), fun _ => ?_⟩,
              hI.epochs⟩
            · rw [hdiv]
              rw [hsc] at hsb
              rw [hsb]
              exact .inr hfb
            · rw [hdiv]; simp
            · rw [hmul]; exact ⟨s', hs', rfl, rfl⟩
          have hne : ¬ Exhausted (valScore T f U.validateEpoch) U.patience (m + 1) := by
            rw [exhausted_iff (d := U.patience) (.inr hfb) (le_max_right _ _)]
            have : 1 ≤ U.patience := le_max_right _ _
            omega
          have h := hrep _ hI' hlog hne
          simp only [Rec.saveState]
          revert h
          rcases reportTrial U k score _ with ⟨st'', fl⟩
          cases fl with
          | next => exact id
          | stop => exact False.elim
          | raise e =>
            rintro ⟨h1, h2, h3, h4⟩
            exact .inr (.inr ⟨h1, h2, hd, hne, h3, h4⟩)
        | false =>
          rw [if_neg (by simp)]
          have hb' := bestSoFar_not_exceeds hbest (by rw [hsc]; exact hx)
          have hI' : Inv T U f r₀ (k + 1)
              { st with
                model := { trainEpochs := st.model.trainEpochs, trainer := some s',
                           bestState := st.model.bestState, learntEpochs := st.model.learntEpochs }
                degradation := st.degradation + 1
                log := st.log ++ [Event.epoch k] ++ [.validate k score] } := by
            refine ⟨⟨s', hs', rfl⟩, hgen, ⟨j, ?_, ?_, hj0, hj1⟩, hI.epochs⟩
            · rw [hdiv]; exact hb'
            · rw [hdiv]; show st.degradation + 1 = _; omega
          simp only
          have hdeg' : st.degradation + 1 = m + 1 - j := by omega
          have hpat : U.degradationMax ≤ st.degradation + 1 ↔ U.patience ≤ m + 1 - j := by
            unfold Setup.patience; omega
          have hex := exhausted_iff hb' (d := U.patience) (le_max_right _ _)
          by_cases hge : st.degradation + 1 ≥ U.degradationMax
          · rw [if_pos hge]
            exact ⟨hI', hd, hex.mpr (hpat.mp hge), hlog⟩
          · rw [if_neg hge]
            have hne : ¬ Exhausted (valScore T f U.validateEpoch) U.patience (m + 1) := by
              rw [hex, ← hpat]; exact hge
            have h := hrep _ hI' hlog hne
            revert h
            rcases reportTrial U k score _ with ⟨st'', fl⟩
            cases fl with
            | next => exact id
            | stop => exact False.elim
            | raise e =>
              rintro ⟨h1, h2, h3, h4⟩
              exact .inr (.inr ⟨h1, h2, hd, hne, h3, h4⟩)

/-- no validation up to epoch `n` exhausted the patience -/
def Setup.NotExhausted (U : Setup σ S) (n : Nat) : Prop :=
  ∀ m, 1 ≤ m → m * U.validateEpoch ≤ n →
    ¬ Exhausted (valScore T f U.validateEpoch) U.patience m

theorem notExhausted_succ {k : Nat} (hv : 0 < U.validateEpoch) (h : U.NotExhausted T f k)
    (h' : U.validateEpoch ∣ k + 1 →
      ¬ Exhausted (valScore T f U.validateEpoch) U.patience ((k + 1) / U.validateEpoch)) :
    U.NotExhausted T f (k + 1) := by
  intro m hm hmk
  rcases Nat.lt_or_ge k (m * U.validateEpoch) with hlt | hge
  · have heq : m * U.validateEpoch = k + 1 := by omega
    have := h' ⟨m, by rw [Nat.mul_comm]; exact heq.symm⟩
    rwa [← heq, Nat.mul_div_cancel _ hv] at this
  · exact h m hm hge

theorem loop_spec (hU : U.evaluator = some f) (hv : 0 < U.validateEpoch) (left : Nat) : ∀ (k : Nat)
    (st : Loop σ β S), Inv T U f r₀ k st → st.log = U.trace T f k → U.NotExhausted T f k →
    (∀ i < k, U.NotPruned T f i) →
    match loop T U left k st with
    | (st', .ok ()) =>
        (Inv T U f r₀ (k + left) st' ∧ st'.log = U.trace T f (k + left) ∧ U.NotExhausted T f (k + left) ∧
          ∀ i < k + left, U.NotPruned T f i) ∨
        ∃ n, n < k + left ∧ Inv T U f r₀ (n + 1) st' ∧ U.NotExhausted T f n ∧ U.validateEpoch ∣ n + 1 ∧
          Exhausted (valScore T f U.validateEpoch) U.patience ((n + 1) / U.validateEpoch) ∧
          (∀ i < n, U.NotPruned T f i) ∧
          st'.log = U.trace T f n ++
            [.epoch n, .validate n (valScore T f U.validateEpoch ((n + 1) / U.validateEpoch))]
    | (st', .error e) => ∃ n, n < k + left ∧ U.NotExhausted T f n ∧ (∀ i < n, U.NotPruned T f i) ∧
        ((∃ s, T.after n = .ok s ∧ T.runEpoch n s = .error e) ∨
        (U.validateEpoch ∣ n + 1 ∧ ∃ s, T.after (n + 1) = .ok s ∧ f n s = .error e) ∨
        (e = .trialPruned ∧ Inv T U f r₀ (n + 1) st' ∧ U.validateEpoch ∣ n + 1 ∧
          U.NotExhausted T f (n + 1) ∧
          st'.log = U.trace T f (n + 1) ∧
          ∃ prune, U.shouldPrune = some prune ∧ prune st'.log = true)) := by
  induction left with
  | zero =>
    intro k st hI hl hne hnp
    exact .inl ⟨hI, hl, hne, hnp⟩
  | succ left ih =>
    intro k st hI hl hne hnp
    have hb := body_spec T U f r₀ hU hv k st hI hl
    unfold loop
    revert hb
    rcases body T U k st with ⟨st', fl⟩
    cases fl with
    | next =>
      rintro ⟨h1, h2, h3, h4⟩
      have h := ih (k + 1) st' h1 h2 (notExhausted_succ T U f hv hne h3) (by
        intro i hi
        rcases Nat.lt_or_ge i k with h | h
        · exact hnp i h
        · rw [show i = k by omega]; exact h4)
      rw [show k + 1 + left = k + (left + 1) by omega] at h
      exact h
    | stop =>
      rintro ⟨h1, h2, h3, h4⟩
      exact .inr ⟨k, by omega, h1, hne, h2, h3, hnp, h4⟩
    | raise e =>
      rintro (h | h | ⟨h1, h2, h3, h4, h5⟩)
      · exact ⟨k, by omega, hne, hnp, .inl h⟩
      · exact ⟨k, by omega, hne, hnp, .inr (.inl h)⟩
      · exact ⟨k, by omega, hne, hnp, .inr (.inr ⟨h1, h2, h3, notExhausted_succ T U f hv hne (fun _ => h4), h5⟩)⟩

omit [Neg S] in
theorem inv_init (s₀ : σ) (hs : T.create = .ok s₀) (hv : 0 < U.validateEpoch) :
    Inv T U f r₀ 0 ⟨{ r₀ with trainer := some s₀ }, ⊥, 0, []⟩ where
  state := ⟨s₀, hs, rfl⟩
  genuine j hj h := absurd h (by have := Nat.mul_pos hj hv; omega)
  best := ⟨0, .inl ⟨rfl, rfl, fun i hi him => absurd him (by simp; omega)⟩, by simp, fun _ => ⟨rfl, rfl⟩,
    fun h => absurd rfl h⟩
  epochs := rfl

/-- without an evaluator every epoch is run -/
theorem loop_no_evaluator (hU : U.evaluator = none) (hv : 0 < U.validateEpoch) (left : Nat) : ∀ (k : Nat)
    (st : Loop σ β S) (s : σ), T.after k = .ok s → st.model.trainer = some s →
    st.log = (List.range k).map .epoch →
    match loop T U left k st with
    | (st', .ok ()) => ∃ s', T.after (k + left) = .ok s' ∧
        st'.model = { st.model with trainer := some s' } ∧ st'.log = (List.range (k + left)).map .epoch
    | (_, .error e) => ∃ n, n < k + left ∧ ∃ s, T.after n = .ok s ∧ T.runEpoch n s = .error e := by
  induction left with
  | zero =>
    intro k st s hs htr hl
    refine ⟨s, hs, ?_, hl⟩
    cases hm : st.model with
    | mk a b c d => rw [hm] at htr; simp only at htr; rw [htr]
  | succ left ih =>
    intro k st s hs htr hl
    unfold loop body Rec.runEpoch
    rw [htr]
    simp only
    cases hrun : T.runEpoch k s with
    | error e => exact ⟨k, by omega, s, hs, hrun⟩
    | ok s' =>
      have hs' : T.after (k + 1) = .ok s' := by
        show stateAfter T.create T.runEpoch (k + 1) = _
        rw [stateAfter, show stateAfter T.create T.runEpoch k = .ok s from hs]
        exact hrun
      simp only
      rw [if_neg (by omega)]
      have hgo : ∀ st' : Loop σ β S, st' = ⟨{ st.model with trainer := some s' }, st.best, st.degradation,
          st.log ++ [Event.epoch k]⟩ →
          match loop T U left (k + 1) st' with
          | (st', .ok ()) => ∃ s', T.after (k + (left + 1)) = .ok s' ∧
              st'.model = { st.model with trainer := some s' } ∧
              st'.log = (List.range (k + (left + 1))).map .epoch
          | (_, .error e) => ∃ n, n < k + (left + 1) ∧ ∃ s, T.after n = .ok s ∧ T.runEpoch n s = .error e := by
        rintro st' rfl
        have h := ih (k + 1) ⟨{ st.model with trainer := some s' }, st.best, st.degradation,
          st.log ++ [Event.epoch k]⟩ s' hs' rfl (by rw [hl, List.range_succ]; simp)
        rw [show k + 1 + left = k + (left + 1) by omega] at h
        exact h
      by_cases hmod : (k + 1) % U.validateEpoch = 0
      · rw [if_neg (by simpa using hmod), hU]
        exact hgo _ rfl
      · rw [if_pos hmod]
        exact hgo _ rfl


/-! ## Reading the log -/


omit [LinearOrder S] [OrderBot S] in
theorem epochsOf_trace (v : Nat) (rep : Bool) (sc : Nat → Option S) (n : Nat) :
    epochsOf (traceUpTo v rep sc n) = List.range n := by
  induction n with
  | zero => rfl
  | succ n ih =>
    have h : epochsOf (epochEvents v rep sc n) = [n] := by
      unfold epochEvents epochsOf
      by_cases h : (n + 1) % v = 0
      · rw [if_pos h]; cases rep <;> rfl
      · rw [if_neg h]; rfl
    rw [traceUpTo_succ, epochsOf, List.filterMap_append]
    show epochsOf _ ++ epochsOf _ = _
    rw [ih, h, List.range_succ]

omit [LinearOrder S] [OrderBot S] in
theorem validationsOf_trace (v : Nat) (hv : 0 < v) (rep : Bool) (sc : Nat → Option S) (n : Nat) :
    validationsOf (traceUpTo v rep sc n) =
      (List.range (n / v)).map (fun i => ((i + 1) * v - 1, sc (i + 1))) := by
  induction n with
  | zero => simp [traceUpTo, validationsOf]
  | succ n ih =>
    rw [traceUpTo_succ, validationsOf, List.filterMap_append]
    show validationsOf _ ++ validationsOf _ = _
    rw [ih]
    by_cases h : (n + 1) % v = 0
    · have hd := Nat.dvd_of_mod_eq_zero h
      have hdiv : (n + 1) / v = n / v + 1 := by rw [Nat.succ_div, if_pos hd]
      have hmul : (n / v + 1) * v = n + 1 := by rw [← hdiv]; exact Nat.div_mul_cancel hd
      have h' : validationsOf (epochEvents v rep sc n) = [(n, sc (n / v + 1))] := by
        unfold epochEvents validationsOf
        rw [if_pos h, hdiv]; cases rep <;> rfl
      rw [h', hdiv, List.range_succ, List.map_append, List.map_singleton, hmul]
      rfl
    · have hnd : ¬ v ∣ n + 1 := fun hd => h (Nat.mod_eq_zero_of_dvd hd)
      have hdiv : (n + 1) / v = n / v := by rw [Nat.succ_div, if_neg hnd]; rfl
      have h' : validationsOf (epochEvents v rep sc n) = [] := by
        unfold epochEvents validationsOf
        rw [if_neg h]; rfl
      rw [h', hdiv, List.append_nil]

omit [LinearOrder S] [OrderBot S] in
theorem reportsOf_trace (v : Nat) (rep : Bool) (sc : Nat → Option S) (n : Nat) :
    reportsOf (traceUpTo v rep sc n) = if rep then
      (validationsOf (traceUpTo v rep sc n)).map (fun p => (p.2.map (fun s => -s), p.1)) else [] := by
  induction n with
  | zero => cases rep <;> rfl
  | succ n ih =>
    rw [traceUpTo_succ, reportsOf, validationsOf, List.filterMap_append, List.filterMap_append]
    show reportsOf _ ++ reportsOf _ = if _ then (validationsOf _ ++ validationsOf _).map _ else []
    rw [ih]
    have h' : reportsOf (epochEvents v rep sc n) = if rep then
        (validationsOf (epochEvents v rep sc n)).map (fun p => (p.2.map (fun s => -s), p.1)) else [] := by
      unfold epochEvents
      by_cases h : (n + 1) % v = 0
      · rw [if_pos h]; cases rep <;> rfl
      · rw [if_neg h]; cases rep <;> rfl
    rw [h']
    cases rep <;> simp

/-- Everything known when `learn_with_optimizer` with an evaluator gets past its loop. -/
structure Finished (n : Nat) (st : Loop σ β S) : Prop where
  inv : Inv T U f r₀ n st
  le : n ≤ U.maxEpoch
  goesOn : ∀ m, 1 ≤ m → m * U.validateEpoch < n →
    ¬ Exhausted (valScore T f U.validateEpoch) U.patience m
  stops : n < U.maxEpoch → ∃ m, 1 ≤ m ∧ n = m * U.validateEpoch ∧
    Exhausted (valScore T f U.validateEpoch) U.patience m
  epochs : epochsOf st.log = List.range n
  validations : validationsOf st.log = (List.range (n / U.validateEpoch)).map
    (fun i => ((i + 1) * U.validateEpoch - 1, valScore T f U.validateEpoch (i + 1)))
  silent : U.shouldPrune = none → reportsOf st.log = []
  reports : U.shouldPrune ≠ none →
    (U.NotExhausted T f n ∧ reportsOf st.log =
      (validationsOf st.log).map (fun p => (p.2.map (fun s => -s), p.1))) ∨
    ∃ m, 1 ≤ m ∧ n = m * U.validateEpoch ∧ Exhausted (valScore T f U.validateEpoch) U.patience m ∧
      reportsOf st.log = ((validationsOf st.log).map (fun p => (p.2.map (fun s => -s), p.1))).dropLast

theorem finished_of_loop (hU : U.evaluator = some f) (hv : 0 < U.validateEpoch) {s₀ : σ}
    (hs : T.create = .ok s₀) {st : Loop σ β S}
    (h : loop T U U.maxEpoch 0 ⟨{ r₀ with trainer := some s₀ }, ⊥, 0, []⟩ = (st, .ok ())) :
    ∃ n, Finished T U f r₀ n st := by
  have hl := loop_spec T U f r₀ hU hv U.maxEpoch 0 _ (inv_init T U f r₀ s₀ hs hv) rfl
    (fun m hm hmk => absurd hmk (by have := Nat.mul_pos hm hv; omega)) (fun i hi => absurd hi (by omega))
  rw [h] at hl
  rcases hl with ⟨h1, h2, h3, -⟩ | ⟨n, hn, h1, h2, h3, h4, h5, h6⟩
  · rw [Nat.zero_add] at h1 h2 h3
    refine ⟨U.maxEpoch, h1, le_refl _, fun m hm hlt => h3 m hm hlt.le, fun h => absurd h (lt_irrefl _), ?_,
      ?_, ?_, ?_⟩
    · rw [h2]; exact epochsOf_trace _ _ _ _
    · rw [h2]; exact validationsOf_trace _ hv _ _ _
    · intro hp
      rw [h2, Setup.trace, reportsOf_trace, hp]; rfl
    · intro hp
      refine .inl ⟨h3, ?_⟩
      rw [h2, Setup.trace, reportsOf_trace, if_pos (Option.isSome_iff_ne_none.mpr hp)]
  · obtain ⟨q, hq⟩ := h3
    have hq0 : q ≠ 0 := by rintro rfl; omega
    have hdiv : (n + 1) / U.validateEpoch = q := by rw [hq, Nat.mul_div_cancel_left _ hv]
    rw [hdiv] at h4 h6
    have hq' : n + 1 = q * U.validateEpoch := by rw [hq, Nat.mul_comm]
    have hdn : n / U.validateEpoch = q - 1 := by
      have h := Nat.succ_div (a := n) (b := U.validateEpoch)
      rw [if_pos ⟨q, hq⟩] at h
      omega
    have hval : validationsOf st.log = (List.range q).map
        (fun i => ((i + 1) * U.validateEpoch - 1, valScore T f U.validateEpoch (i + 1))) := by
      rw [h6, validationsOf, List.filterMap_append]
      show validationsOf _ ++ [_] = _
      rw [Setup.trace, validationsOf_trace _ hv, hdn]
      obtain ⟨p, rfl⟩ : ∃ p, q = p + 1 := ⟨q - 1, by omega⟩
      rw [Nat.add_sub_cancel, List.range_succ, List.map_append, List.map_singleton, ← hq']
      rfl
    refine ⟨n + 1, h1, by omega, ?_, ?_, ?_, ?_, ?_, ?_⟩
    · intro m hm hlt
      exact h2 m hm (by omega)
    · intro _
      exact ⟨q, by omega, hq', h4⟩
    · rw [h6, epochsOf, List.filterMap_append]
      show epochsOf _ ++ [n] = _
      rw [Setup.trace, epochsOf_trace, List.range_succ]
    · rw [hdiv]; exact hval
    · intro hp
      rw [h6, reportsOf, List.filterMap_append]
      show reportsOf _ ++ [] = _
      rw [List.append_nil, Setup.trace, reportsOf_trace, hp]; rfl
    · intro hp
      refine .inr ⟨q, by omega, hq', h4, ?_⟩
      rw [hval, h6, reportsOf, List.filterMap_append]
      show reportsOf _ ++ [] = _
      rw [List.append_nil, Setup.trace, reportsOf_trace, if_pos (Option.isSome_iff_ne_none.mpr hp),
        validationsOf_trace _ hv, hdn]
      obtain ⟨p, rfl⟩ : ∃ p, q = p + 1 := ⟨q - 1, by omega⟩
      rw [Nat.add_sub_cancel, List.range_succ, List.map_append, List.map_append, List.map_singleton,
        List.map_singleton, List.dropLast_concat]

/-- what happens after the loop -/
theorem learn_ok_inv (hU : U.evaluator = some f) (hv : 0 < U.validateEpoch) {r' : Rec σ β}
    {log : List (Event S)} (h : learnWithOptimizer T U r₀ = ((r', log), .ok ())) :
    ∃ n st, Finished T U f r₀ n st ∧ st.log = log ∧ st.model.loadState T = .ok r' := by
  unfold learnWithOptimizer Rec.startLearning at h
  cases hc : T.create with
  | error e => rw [hc] at h; simp at h
  | ok s₀ =>
    rw [hc] at h
    simp only at h
    cases hl : loop T U U.maxEpoch 0 ⟨{ r₀ with trainer := some s₀ }, ⊥, 0, []⟩ with
    | mk st o =>
      rw [hl] at h
      cases o with
      | error e => simp at h
      | ok u =>
        obtain ⟨n, hn⟩ := finished_of_loop T U f r₀ hU hv hc hl
        rw [hU] at h
        simp only at h
        cases hld : st.model.loadState T with
        | error e => rw [hld] at h; simp at h
        | ok r₂ =>
          rw [hld] at h
          simp only [Prod.mk.injEq] at h
          exact ⟨n, st, hn, h.1.2, by rw [← h.1.1, hld]⟩

theorem mem_validations {n : Nat} {st : Loop σ β S} (h : Finished T U f r₀ n st) {k : Nat} {x : Option S} :
    (k, x) ∈ validationsOf st.log ↔ ∃ j, 1 ≤ j ∧ j ≤ n / U.validateEpoch ∧ k = j * U.validateEpoch - 1 ∧
      x = valScore T f U.validateEpoch j := by
  rw [h.validations, List.mem_map]
  constructor
  · rintro ⟨i, hi, he⟩
    rw [List.mem_range] at hi
    rw [Prod.mk.injEq] at he
    exact ⟨i + 1, by omega, by omega, he.1.symm, he.2.symm⟩
  · rintro ⟨j, h1, h2, rfl, rfl⟩
    exact ⟨j - 1, List.mem_range.mpr (by omega), by rw [Nat.sub_add_cancel h1]⟩


omit [LinearOrder S] [OrderBot S] [Neg S] in
theorem stateAfter_error_mono {n m : Nat} {e : Err} (h : T.after n = .error e) (hnm : n ≤ m) :
    T.after m = .error e := by
  induction hnm with
  | refl => exact h
  | step _ ih =>
    show stateAfter T.create T.runEpoch (_ + 1) = _
    rw [stateAfter, show stateAfter T.create T.runEpoch _ = .error e from ih]

/-- a prefix of the trace that ends with a report is the trace of a number of whole epochs -/
theorem prefix_report (n : Nat) (l : List (Event S)) (x : Option S) (k : Nat)
    (h : l ++ [.report x k] <+: U.trace T f n) :
    ∃ k', k' < n ∧ U.validateEpoch ∣ k' + 1 ∧ l ++ [.report x k] = U.trace T f (k' + 1) := by
  induction n with
  | zero =>
    have := h.length_le
    simp [Setup.trace, traceUpTo] at this
  | succ n ih =>
    have hA : U.trace T f n <+: U.trace T f (n + 1) := by
      rw [Setup.trace, Setup.trace, traceUpTo_succ]; exact List.prefix_append _ _
    rcases List.prefix_or_prefix_of_prefix h hA with h' | h'
    · obtain ⟨k', hk', h''⟩ := ih h'
      exact ⟨k', by omega, h''⟩
    · obtain ⟨q, hq⟩ := h'
      rw [Setup.trace, Setup.trace, traceUpTo_succ] at *
      rw [← hq, List.prefix_append_right_inj] at h
      rcases List.eq_nil_or_concat q with rfl | ⟨q', a, rfl⟩
      · rw [List.append_nil] at hq
        obtain ⟨k', hk', h''⟩ := ih (by rw [← hq]; exact List.prefix_refl _)
        exact ⟨k', by omega, h''⟩
      · rw [List.concat_eq_append] at *
        rw [← List.append_assoc] at hq
        have ha : a = .report x k := by
          have := List.append_inj_right' hq rfl
          simpa using this
        subst ha
        unfold epochEvents at h
        by_cases hm : (n + 1) % U.validateEpoch = 0
        · refine ⟨n, by omega, Nat.dvd_of_mod_eq_zero hm, ?_⟩
          rw [← hq, List.append_assoc, Setup.trace, traceUpTo_succ, List.append_cancel_left_eq, epochEvents]
          rw [if_pos hm] at h ⊢
          obtain ⟨t, ht⟩ := h
          cases hp : U.shouldPrune.isSome with
          | false =>
            rw [hp] at ht
            rcases q' with _ | ⟨a, _ | ⟨b, _ | ⟨c, q'⟩⟩⟩ <;> simp at ht
          | true =>
            rw [hp] at ht
            rcases q' with _ | ⟨a, _ | ⟨b, _ | ⟨c, q'⟩⟩⟩ <;> simp at ht
            obtain ⟨rfl, rfl, ⟨rfl, rfl⟩, -⟩ := ht
            simp
        · rw [if_neg hm] at h
          obtain ⟨t, ht⟩ := h
          rcases q' with _ | ⟨a, q'⟩ <;> simp at ht

theorem loop_epochs (left : Nat) : ∀ (k : Nat) (st : Loop σ β S), epochsOf st.log = List.range k →
    ∃ n, n ≤ k + left ∧ epochsOf (loop T U left k st).1.log = List.range n := by
  induction left with
  | zero => intro k st h; exact ⟨k, by omega, h⟩
  | succ left ih =>
    intro k st h
    have hb : epochsOf (body T U k st).1.log = List.range (k + 1) ∨
        (body T U k st).1 = st ∧ ∃ e, (body T U k st).2 = .raise e := by
      unfold body
      cases st.model.runEpoch T k with
      | error e => exact .inr ⟨rfl, e, rfl⟩
      | ok r =>
        left
        have h1 : ∀ l, epochsOf (st.log ++ [Event.epoch k] ++ l) = List.range (k + 1) ++ epochsOf l := by
          intro l
          unfold epochsOf at h ⊢
          rw [List.filterMap_append, List.filterMap_append, h, List.range_succ]
          rfl
        have h0 : epochsOf (st.log ++ [Event.epoch k]) = List.range (k + 1) := by
          have := h1 []; simpa [epochsOf] using this
        simp only
        split
        · exact h0
        split
        · exact h0
        cases U.evaluator with
        | none => exact h0
        | some f =>
          cases r.trainer with
          | none => exact h0
          | some s =>
            simp only
            cases f k s with
            | error e => exact h0
            | ok score =>
              have hrep : ∀ st' : Loop σ β S, epochsOf st'.log = List.range (k + 1) →
                  epochsOf (reportTrial U k score st').1.log = List.range (k + 1) := by
                intro st' hst'
                unfold reportTrial
                cases U.shouldPrune with
                | none => exact hst'
                | some prune =>
                  have : epochsOf (st'.log ++ [Event.report (score.map fun s => -s) k]) =
                      List.range (k + 1) := by
                    unfold epochsOf at hst' ⊢
                    rw [List.filterMap_append, hst']; simp
                  simp only
                  split <;> exact this
              have hval : epochsOf (st.log ++ [Event.epoch k] ++ [.validate k score]) =
                  List.range (k + 1) := by rw [h1]; simp [epochsOf]
              simp only
              unfold judge
              split
              · cases Rec.saveState T _ with
                | error e => exact hval
                | ok r' => exact hrep _ hval
              · simp only
                split
                · exact hval
                · exact hrep _ hval
    unfold loop
    revert hb
    rcases body T U k st with ⟨st', fl⟩
    rintro (hb | ⟨rfl, e, he⟩)
    · cases fl with
      | next =>
        obtain ⟨n, hn, hx⟩ := ih (k + 1) st' hb
        exact ⟨n, by omega, hx⟩
      | stop => exact ⟨k + 1, by omega, hb⟩
      | raise e => exact ⟨k + 1, by omega, hb⟩
    · simp only at he
      subst he
      exact ⟨k, by omega, h⟩

end

end Irspack.EarlyStop
