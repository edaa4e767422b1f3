import Verif.Model.RecClasses
import Verif.Model.Tuning

/-!
# What a trial with the default tuning range may try
-/

namespace Irspack.RecClasses

/-- a value within a range: an integer or a number between the bounds, or a member of the list -/
def Within : Range → Val → Prop
  | .int lo hi, v => ∃ k : ℤ, lo ≤ k ∧ k ≤ hi ∧ v = .num k
  | .float lo hi, v => ∃ q : ℚ, lo ≤ q ∧ q ≤ hi ∧ v = .num q
  | .cat values, v => v ∈ values

/-- The arguments of a trial: each tuned parameter has some value within its default range, and nothing else is
given, except perhaps the number of threads. -/
structure Trial (c : RecClass) (given : Args) : Prop where
  names : ∀ a ∈ given, a.1 = "n_threads" ∨ a.1 ∈ c.tune.map (·.1)
  values : ∀ r ∈ c.tune, ∃ v, given.lookup r.1 = some v ∧ Within r.2 v

/-- the request that a range of the table makes to a trial; whether it is logarithmic is left open -/
inductive Asks : String × Range → Tuning.ParameterRange ℚ Val → Prop
  | int (name : String) (lo hi : ℤ) (log : Bool) :
      Asks (name, .int lo hi) ⟨name.toList, .int (some lo) (some hi) 1 log⟩
  | float (name : String) (lo hi : ℚ) (log : Bool) :
      Asks (name, .float lo hi) ⟨name.toList, .float (some lo) (some hi) log⟩
  | cat (name : String) (values : List Val) : Asks (name, .cat values) ⟨name.toList, .categorical values⟩

/-- The sampler of a study answers every request of a range with a value within it. -/
def Answers {S : Type} (c : RecClass) (sample : S → List Char → Tuning.Request ℚ Val → Except Err Val) : Prop :=
  ∀ s, ∀ r ∈ c.tune, ∀ q, Asks r q → ∃ v, sample s q.name q.request = .ok v ∧ Within r.2 v

/-- the keyword arguments with which the recommender is constructed -/
def keywords (d : Tuning.Dict Val) : Args := d.map (fun e => (String.ofList e.1, e.2))

/-- the fixed parameters: nothing, or the number of threads -/
def fixedThreads : Option Val → Tuning.Dict Val
  | none => []
  | some v => [("n_threads".toList, v)]

/-- what the objective function finds after training: the exception, or what was learnt and the scores -/
def trained {M : Type} (learnt : M → Tuning.Dict Val) (score : M → Tuning.Dict (Option ℚ)) :
    Except Err M → Tuning.FitResult ℚ Val
  | .ok m => .done (learnt m) (score m)
  | .error e => .raised e none

end Irspack.RecClasses
