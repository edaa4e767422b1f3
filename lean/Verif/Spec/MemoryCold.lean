import Verif.Spec.Memory
import Verif.Model.MemoryCold

/-!
# Specification vocabulary for C70, cold-user evaluation
-/

namespace Irspack.Memory

open Irspack Irspack.Evaluation

section
variable {S : Type} [LinearOrder S] [OrderBot S]

/-- As long as the buffers `kept` hold what they hold in `st₀`, the call leaves them so and raises or
answers as `answer` says, with an array in another buffer. -/
def AnswersNew (kept : Nat → Prop) (st₀ : Store S) (call : Call S)
    (answer : Except Err (Nat × List (ScoreRow S))) : Prop :=
  ∀ st, SameOn kept st st₀ → SameOn kept (call st).1 st₀ ∧
    match (call st).2, answer with
    | .ok v, .ok (cols, rows) => ¬ kept v.buf ∧ v.cols = cols ∧ Distinct v ∧ v.read (call st).1 = rows
    | .error e, .error e' => e = e'
    | _, _ => False

/-- A recommender for cold users whose scoring methods hand out arrays nobody keeps. -/
def ColdHandsOutNew (kept : Nat → Prop) (st₀ : Store S) (model : ColdModel S) (r : ColdRecommender S) :
    Prop :=
  model.nItems = r.nItems ∧ (∀ a b, AnswersNew kept st₀ (model.coldUser a b) (r.coldUser a b)) ∧
  ∀ st, SameOn kept st st₀ → SameOn kept (model.featureScorer st).1 st₀ ∧
    match (model.featureScorer st).2, r.featureScorer with
    | .ok f, .ok f' => ∀ a b, AnswersNew kept st₀ (f a b) (f' a b)
    | .error e, .error e' => e = e'
    | _, _ => False

/-- Every answer has the columns of all items, or only those of the warm items while there are cold
ones. -/
def ColumnsFit (ev : ColdEvaluator) (r : ColdRecommender S) : Prop :=
  ∀ cols rows, ((∃ a b, r.coldUser a b = .ok (cols, rows)) ∨
      ∃ f a b, r.featureScorer = .ok f ∧ f a b = .ok (cols, rows)) →
    cols = ev.base.nItems ∨ (cols = ev.nWarm ∧ ev.nCold ≠ 0)

/-- The call leaves buffer `b` alone, and an array it answers with has `n` columns (it may be an array
the model keeps). -/
def NarrowCall (b n : Nat) (call : Call S) : Prop :=
  ∀ st, (call st).1 b = st b ∧ ∀ v, (call st).2 = .ok v → v.cols = n

/-- A model that knows nothing of cold items: all answers have `n` columns. -/
def Narrow (b n : Nat) (model : ColdModel S) : Prop :=
  (∀ i j, NarrowCall b n (model.coldUser i j)) ∧
  ∀ st, (model.featureScorer st).1 b = st b ∧
    ∀ f, (model.featureScorer st).2 = .ok f → ∀ i j, NarrowCall b n (f i j)

end
end Irspack.Memory
