import Verif.Spec.Split
import Verif.Spec.Report

/-!
# What evaluating on held-out interactions should mean

Everything is said in terms of user ids, item ids and the interaction frame.
-/

namespace Irspack.Spec
open Irspack.Split

variable {U I T : Type} [DecidableEq U] [DecidableEq I]

/-- The frame has an interaction of `u` with `i`. -/
def Interacted (df : List (Row U I T)) (u : U) (i : I) : Prop := ∃ r ∈ df, r.user = u ∧ r.item = i

/-- The interaction of `u` with `i` is held out: the pair's `X_test` stores it. -/
def HeldOut (P : UserPair U I) (items : List I) (u : U) (i : I) : Prop :=
  ∃ k j, P.userIds[k]? = some u ∧ items[j]? = some i ∧ j ∈ storedCols P.xTest k

/-- `d` is the report for the users `us`: user `us[k]` gets the `cutoff` best-scored items among those
allowed for them, and the items relevant for them count as hits. -/
def IsEvaluation (us : List U) (items : List I) (capped : Bool) (cutoff : Nat) (score : Nat → Nat → ℝ)
    (relevant allowed : U → I → Prop) (d : Evaluation.MetricDict) : Prop :=
  ∃ (G C : Nat → Finset Nat) (L : Nat → List Nat),
    (∀ k (hk : k < us.length) i, i ∈ G k ↔ ∃ hi : i < items.length, relevant us[k] items[i]) ∧
    (∀ k (hk : k < us.length) i, i ∈ C k ↔ ∃ hi : i < items.length, allowed us[k] items[i]) ∧
    (∀ k < us.length, IsTopK (C k) (score k) cutoff (L k)) ∧
    IsReport us.length items.length capped L G d

/-- Rows `offset, offset + 1, …` of `X` hold the weights of the users `us`. -/
def Block (X : Csr ℝ) (offset : Nat) (us : List U) (items : List I) (weight : U → I → ℝ) : Prop :=
  ∀ k (hk : k < us.length) j (hj : j < items.length), entry X (offset + k) j = weight us[k] items[j]

open Classical in
/-- The weights a group of users is learnt with: those of the frame, without what is held out. -/
noncomputable def learnWeight (P : UserPair U I) (items : List I) (useRating : Bool) (df : List (Row U I T))
    (u : U) (i : I) : ℝ :=
  if HeldOut P items u i then 0 else firstWeight useRating df u i

end Irspack.Spec
