import Verif.Model.SimRecommender
import Verif.Spec.Similarity

/-!
# What a neighbourhood recommender should do with its arguments
-/

namespace Irspack.RecClasses

/-- The value of an argument: the one given, or else the documented default. -/
def Argument (given : Args) (name : String) (default v : Val) : Prop :=
  given.lookup name = some v ∨ (given.lookup name = none ∧ v = default)

/-- Only arguments with these names are given. -/
def Only (given : Args) (names : List String) : Prop := ∀ a ∈ given, a.1 ∈ names

/-- The number of threads is `T`: given, or found in the environment. -/
def ThreadsAre (e : Env) (given : Args) (T : Nat) : Prop :=
  Argument given "n_threads" .none (.num T) ∨
    (Argument given "n_threads" .none .none ∧ Threads.getNThreads e.chars none e.threads e.cpus = .ok T)

/-- The feature weighting is `w`: by name, with the parameters given for BM25. -/
def WeightingIs (given : Args) (w : Sim.Weighting) : Prop :=
  (Argument given "feature_weighting" (.str "NONE") (.str "NONE") ∧ w = .none) ∨
  (Argument given "feature_weighting" (.str "NONE") (.str "TF_IDF") ∧ w = .tfIdf) ∨
  (Argument given "feature_weighting" (.str "NONE") (.str "BM_25") ∧
    ∃ k1 b : ℚ, Argument given "bm25_k1" (.num (6 / 5)) (.num k1) ∧
      Argument given "bm25_b" (.num (3 / 4)) (.num b) ∧ w = .bm25 k1 b)

/-- The value that stands for an optional number: `None`, or the number. -/
def optionalSize : Option Nat → Val
  | none => .none
  | some k => .num k

/-- What `top_k` leaves of a column: all of it for `None`, the `k` best entries otherwise. -/
noncomputable def keepBest : Option Nat → SpVec ℝ → SpVec ℝ
  | none, column => column
  | some k, column => Spec.Sim.bestOf k column

end Irspack.RecClasses
