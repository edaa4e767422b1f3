import Mathlib.Analysis.SpecialFunctions.Log.Base
import Mathlib.Algebra.BigOperators.Group.Finset.Basic

/-!
# Textbook definitions of ranking metrics and of a top-k list

Nothing here refers to the model of the code.
-/

namespace Irspack.Spec

variable {I : Type}

/-- Position `j` of the list holds a relevant item. -/
def Relevant (recs : List I) (gt : Finset I) (j : Nat) : Prop :=
  ∃ i, recs[j]? = some i ∧ i ∈ gt

open Classical in
/-- Number of relevant items among the first `k` positions. -/
noncomputable def hitsAt (recs : List I) (gt : Finset I) (k : Nat) : Nat :=
  ((Finset.range k).filter (Relevant recs gt)).card

open Classical in
/-- 1 if some recommended item is relevant, else 0. -/
noncomputable def hit (recs : List I) (gt : Finset I) : ℝ :=
  if ∃ j, Relevant recs gt j then 1 else 0

/-- Fraction of the recommended items that are relevant (0 for an empty list). -/
noncomputable def precision (recs : List I) (gt : Finset I) : ℝ :=
  if recs = [] then 0 else (hitsAt recs gt recs.length : ℝ) / recs.length

/-- Fraction of the relevant items that are recommended; with `capped` the denominator is the
largest number of relevant items the list could hold. -/
noncomputable def recall (capped : Bool) (recs : List I) (gt : Finset I) : ℝ :=
  if recs = [] then 0
  else (hitsAt recs gt recs.length : ℝ) /
    (if capped then (min gt.card recs.length : ℕ) else gt.card : ℕ)

open Classical in
/-- Discounted cumulative gain with binary relevance. -/
noncomputable def dcg (recs : List I) (gt : Finset I) : ℝ :=
  ∑ j ∈ (Finset.range recs.length).filter (Relevant recs gt), 1 / Real.logb 2 ((j : ℝ) + 2)

/-- DCG of a list whose first `n` positions are all relevant. -/
noncomputable def idealDcg (n : Nat) : ℝ := ∑ j ∈ Finset.range n, 1 / Real.logb 2 ((j : ℝ) + 2)

/-- Normalised DCG (0 for an empty list). -/
noncomputable def ndcg (recs : List I) (gt : Finset I) : ℝ :=
  if recs = [] then 0 else dcg recs gt / idealDcg (min gt.card recs.length)

open Classical in
/-- Average precision: precision at each relevant position, summed, over the number of relevant
items. -/
noncomputable def averagePrecision (recs : List I) (gt : Finset I) : ℝ :=
  (∑ j ∈ (Finset.range recs.length).filter (Relevant recs gt),
    (hitsAt recs gt (j + 1) : ℝ) / ((j : ℝ) + 1)) / gt.card

/-! ### Top-k -/

/-- `a` ranks before `b`: larger score, or equal score and smaller index. -/
def Before {S : Type} [LinearOrder S] (score : Nat → S) (a b : Nat) : Prop :=
  score b < score a ∨ (score a = score b ∧ a < b)

/-- `l` is the list of the `k` best elements of the candidate set, best first. -/
structure IsTopK {S : Type} [LinearOrder S] (cand : Finset Nat) (score : Nat → S) (k : Nat)
    (l : List Nat) : Prop where
  /-- every listed element is a candidate -/
  mem : ∀ i ∈ l, i ∈ cand
  /-- as many elements as possible, at most `k` -/
  length : l.length = min k cand.card
  /-- best first; in particular no repetition -/
  sorted : l.Pairwise (Before score)
  /-- every candidate left out ranks after every listed element -/
  best : ∀ i ∈ l, ∀ j ∈ cand, j ∉ l → Before score i j

/-! ### Which items may be recommended to a user -/

/-- The evaluator's `recommendable` argument: no list means no restriction, one list applies to
every user, otherwise list `u` applies to user `u`. -/
def RecommendableTo (recLists : List (List Nat)) (u i : Nat) : Prop :=
  match recLists with
  | [] => True
  | [l] => i ∈ l
  | ls => i ∈ ls.getD u []

end Irspack.Spec
