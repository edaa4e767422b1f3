import Verif.Model.Score
import Mathlib.Data.Real.Basic

/-!
# More evidence
-/

namespace Irspack.Spec.Evidence

/-- User `v` has interacted with both items. -/
def Joins (X : CSR ℝ) (v i j : Nat) : Prop := X.get v i ≠ 0 ∧ X.get v j ≠ 0

/-- User `v` has interacted with neither item. -/
def Neither (X : CSR ℝ) (v i j : Nat) : Prop := X.get v i = 0 ∧ X.get v j = 0

/-- Plain "has interacted" data. -/
def Binary (X : CSR ℝ) : Prop := ∀ u i, X.get u i = 0 ∨ X.get u i = 1

/-- What users `v` do between the data sets `X` and `X'` moves the similarity `W` to `W'` the right way:
a user who now joins two items brings them closer, one who takes up only one of them does not. -/
structure Follows (X X' : CSR ℝ) (v : Nat) (W W' : CSR ℝ) : Prop where
  closer : ∀ i < X.cols, ∀ j < X.cols, i ≠ j → ¬ Joins X v i j → Joins X' v i j → W.get i j < W'.get i j
  apart : ∀ i < X.cols, ∀ j < X.cols, i ≠ j → Neither X v i j → ¬ Joins X' v i j → W'.get i j ≤ W.get i j

/-- Row by row and item by item, the profiles `x'` say at least as much as `x`. -/
structure Extends (x x' : CSR ℝ) : Prop where
  cols : x'.cols = x.cols
  nrows : x'.nrows = x.nrows
  more : ∀ u i, x.get u i ≤ x'.get u i

/-- For profiles over `n` items, adding to a profile never lowers a score. -/
def NeverLowers (r : Score.Recommender ℝ) (n : Nat) : Prop :=
  ∀ x x' : CSR ℝ, x.WF → x'.WF → x.cols = n → Extends x x' →
    ∃ s s', r.getScoreColdUser x = .ok s ∧ r.getScoreColdUser x' = .ok s' ∧
      s.cols = s'.cols ∧ s.rows.length = s'.rows.length ∧ ∀ u j, s.get u j ≤ s'.get u j

end Irspack.Spec.Evidence
