import Verif.Model.RecClasses
import Verif.Model.Similarity
import Verif.Model.Threads

/-!
# From the arguments of the neighbourhood recommenders to the computers

(/repo/src/irspack/recommenders/knn.py, user_knn.py, p3.py, rp3.py and
/repo/cpp_source/knn/wrapper.cpp.)

The constructors pass some arguments on by position, to the constructor of the base class and to the
computers of the extension module; `call` is the rule by which Python and nanobind match them with the
parameters.  Attributes of a recommender are kept as arguments are, by name.
-/

namespace Irspack.RecClasses

open Sim

/-- A signature: parameters in order, with their defaults if they have one. -/
abbrev Signature := List (String × Option Val)

/-- `f(*pos, **kw)`: positional arguments fill the first parameters, the others are looked up by name and
then among the defaults.  `TypeError` for too many positional arguments, for a name that is not a parameter
or is already filled, and for a parameter without value.  (The language rule; nanobind follows it.) -/
def call (sig : Signature) (pos : List Val) (kw : Args) : Except Err Args :=
  if sig.length < pos.length then .error .typeError
  else if kw.any (fun a => decide (a.1 ∉ (sig.drop pos.length).map (·.1))) then .error .typeError
  else
    let rest := (sig.drop pos.length).map (fun d => (d.1, (kw.lookup d.1).or d.2))
    if rest.any (fun a => a.2.isNone) then .error .typeError
    else .ok ((sig.take pos.length).map (·.1) |>.zip pos |>.append (rest.map (fun a => (a.1, a.2.getD .none))))

/-- reading an attribute -/
def attr (p : Args) (name : String) : Except Err Val :=
  match p.lookup name with
  | some v => .ok v
  | none => .error .attributeError

/-- `BaseKNNRecommender.__init__` (knn.py:38-47) and `BaseUserKNNRecommender.__init__`
(user_knn.py:32-41), without the matrix -/
def baseKnnSig : Signature :=
  [("shrinkage", some (.num 0)), ("top_k", some (.num 100)), ("n_threads", some .none),
   ("feature_weighting", some (.str "NONE")), ("bm25_k1", some (.num (6 / 5))), ("bm25_b", some (.num (3 / 4)))]

/-- `CosineSimilarityComputer` (wrapper.cpp:12-16), without the matrix -/
def cosineSig : Signature :=
  [("shrinkage", none), ("normalize", none), ("n_threads", some (.num 1)), ("max_chunk_size", some (.num 128))]

/-- `JaccardSimilarityComputer` (wrapper.cpp:21-26) -/
def jaccardSig : Signature :=
  [("shrinkage", none), ("n_threads", some (.num 1)), ("max_chunk_size", some (.num 128))]

/-- `TverskyIndexComputer` (wrapper.cpp:31-36) -/
def tverskySig : Signature :=
  [("shrinkage", none), ("alpha", none), ("beta", none), ("n_threads", some (.num 1)),
   ("max_chunk_size", some (.num 128))]

/-- `AsymmetricSimilarityComputer` (wrapper.cpp:41-47) -/
def asymmetricSig : Signature :=
  [("shrinkage", none), ("alpha", none), ("n_threads", some (.num 1)), ("max_chunk_size", some (.num 128))]

/-- `P3alphaComputer` (wrapper.cpp:52-56) -/
def p3Sig : Signature :=
  [("alpha", some (.num 0)), ("n_threads", some (.num 1)), ("max_chunk_size", some (.num 128))]

/-- `RP3betaComputer` (wrapper.cpp:60-65) -/
def rp3Sig : Signature :=
  [("alpha", some (.num 0)), ("beta", some (.num 0)), ("n_threads", some (.num 1)),
   ("max_chunk_size", some (.num 128))]

/-! ## Conversions of nanobind

Simplification: a Python `bool` given where a number is expected, which counts as 0 or 1, is a `TypeError`
here. -/

/-- to `double` -/
noncomputable def toReal : Val → Except Err ℝ
  | .num q => .ok (q : ℝ)
  | _ => .error .typeError

/-- to `size_t`.  Simplification: sizes are unbounded. -/
def toSize : Val → Except Err Nat
  | .num q => if q.den = 1 ∧ 0 ≤ q.num then .ok q.num.toNat else .error .typeError
  | _ => .error .typeError

/-- to `bool` -/
def toBool : Val → Except Err Bool
  | .bool b => .ok b
  | _ => .error .typeError

/-- the environment of the process: `IRSPACK_NUM_THREADS_DEFAULT` and `os.cpu_count()` -/
structure Env where
  chars : Chars
  threads : Option (List Char)
  cpus : Option Nat

/-- `get_n_threads` (_threading.py:5-17) on argument values.  Simplification: a value that is neither `None`
nor an integer, which the code hands on until the extension module rejects it, is rejected at once. -/
def Env.nThreads (e : Env) : Val → Except Err Val
  | .none => (Threads.getNThreads e.chars none e.threads e.cpus).map (fun n => .num n)
  | .num q => if q.den = 1 then .ok (.num q) else .error .typeError
  | _ => .error .typeError

/-! ## Constructors -/

/-- the body of the constructors of the base classes (knn.py:48-54, user_knn.py:42-48):
`FeatureWeightingScheme(…)` raises `ValueError` for an unknown name -/
def baseKnnInit (e : Env) (pos : List Val) (kw : Args) : Except Err Args := do
  let p ← call baseKnnSig pos kw
  let fw ← attr p "feature_weighting"
  if fw ≠ .str "NONE" ∧ fw ≠ .str "TF_IDF" ∧ fw ≠ .str "BM_25" then .error .valueError
  else
    let n ← e.nThreads (← attr p "n_threads")
    return [("shrinkage", ← attr p "shrinkage"), ("top_k", ← attr p "top_k"), ("feature_weighting", fw),
      ("bm25_k1", ← attr p "bm25_k1"), ("bm25_b", ← attr p "bm25_b"), ("n_threads", n)]

/-- the constructors with feature weighting: `CosineKNNRecommender.__init__` (knn.py:147-156),
`AsymmetricCosineKNNRecommender.__init__` (knn.py:218-227) and their counterparts for users
(user_knn.py:134-143, 204-213), which keep one more argument -/
def weightedInit (e : Env) (own : String) (p : Args) : Except Err Args := do
  let base ← baseKnnInit e [← attr p "shrinkage", ← attr p "top_k", ← attr p "n_threads"]
    [("feature_weighting", ← attr p "feature_weighting"), ("bm25_k1", ← attr p "bm25_k1"),
     ("bm25_b", ← attr p "bm25_b")]
  return base ++ [(own, ← attr p own)]

/-- `JaccardKNNRecommender.__init__` (knn.py:262-269) -/
def jaccardInit (e : Env) (p : Args) : Except Err Args := do
  baseKnnInit e [← attr p "shrinkage", ← attr p "top_k", ← attr p "n_threads"] []

/-- `TverskyIndexKNNRecommender.__init__` (knn.py:310-321) -/
def tverskyInit (e : Env) (p : Args) : Except Err Args := do
  let base ← baseKnnInit e [← attr p "shrinkage", ← attr p "top_k", ← attr p "n_threads"] []
  return base ++ [("alpha", ← attr p "alpha"), ("beta", ← attr p "beta")]

/-! ## Creating the computer and learning -/

/-- `CosineKNNRecommender._create_computer` (knn.py:158-161, user_knn.py:145-148): kind of similarity,
shrinkage, number of threads -/
noncomputable def createCosine (self : Args) : Except Err (Kind × ℝ × Nat) := do
  let c ← call cosineSig [← attr self "shrinkage", ← attr self "normalize", ← attr self "n_threads"] []
  return (.cosine (← toBool (← attr c "normalize")), ← toReal (← attr c "shrinkage"), ← toSize (← attr c "n_threads"))

/-- `AsymmetricCosineKNNRecommender._create_computer` (knn.py:229-232, user_knn.py:215-218) -/
noncomputable def createAsymmetric (self : Args) : Except Err (Kind × ℝ × Nat) := do
  let c ← call asymmetricSig [← attr self "shrinkage", ← attr self "alpha", ← attr self "n_threads"] []
  return (.asymmetric (← toReal (← attr c "alpha")), ← toReal (← attr c "shrinkage"), ← toSize (← attr c "n_threads"))

/-- `JaccardKNNRecommender._create_computer` (knn.py:271-272) -/
noncomputable def createJaccard (self : Args) : Except Err (Kind × ℝ × Nat) := do
  let c ← call jaccardSig [← attr self "shrinkage", ← attr self "n_threads"] []
  return (.jaccard, ← toReal (← attr c "shrinkage"), ← toSize (← attr c "n_threads"))

/-- `TverskyIndexKNNRecommender._create_computer` (knn.py:323-326) -/
noncomputable def createTversky (self : Args) : Except Err (Kind × ℝ × Nat) := do
  let c ← call tverskySig [← attr self "shrinkage", ← attr self "alpha", ← attr self "beta",
    ← attr self "n_threads"] []
  return (.tversky (← toReal (← attr c "alpha")) (← toReal (← attr c "beta")), ← toReal (← attr c "shrinkage"),
    ← toSize (← attr c "n_threads"))

/-- the choice of the weighting in `_learn` (knn.py:68-75, user_knn.py:62-69) -/
noncomputable def weightingOf (self : Args) : Except Err Weighting := do
  let fw ← attr self "feature_weighting"
  if fw = .str "NONE" then return .none
  else if fw = .str "TF_IDF" then return .tfIdf
  else if fw = .str "BM_25" then
    return .bm25 (← toReal (← attr self "bm25_k1")) (← toReal (← attr self "bm25_b"))
  else .error .runtimeError

/-- `learn` of the item-based recommenders (knn.py:67-80).  Simplification: if several arguments are wrong,
the error need not be the one that is raised first. -/
noncomputable def itemLearn (nth : Nat → SpVec ℝ → List Nat) (create : Args → Except Err (Kind × ℝ × Nat))
    (X : CSR ℝ) (self : Args) : Except Err (CSR ℝ) := do
  let w ← weightingOf self
  let c ← create self
  let k ← toSize (← attr self "top_k")
  itemKnnW nth w c.1 c.2.1 X c.2.2 k

/-- `learn` of the user-based recommenders (user_knn.py:61-74), with the same simplification -/
noncomputable def userLearn (nth : Nat → SpVec ℝ → List Nat) (create : Args → Except Err (Kind × ℝ × Nat))
    (X : CSR ℝ) (self : Args) : Except Err (CSR ℝ) := do
  let w ← weightingOf self
  let c ← create self
  let k ← toSize (← attr self "top_k")
  userKnnU nth w c.1 c.2.1 X c.2.2 k

/-- `cls(X, **given).learn()` for `CosineKNNRecommender`: the similarity matrix -/
noncomputable def cosineKnnFit (nth : Nat → SpVec ℝ → List Nat) (e : Env) (X : CSR ℝ) (given : Args) :
    Except Err (CSR ℝ) := do
  itemLearn nth createCosine X (← weightedInit e "normalize" (← construct cosineKnn given))

/-- the same for `AsymmetricCosineKNNRecommender` -/
noncomputable def asymmetricKnnFit (nth : Nat → SpVec ℝ → List Nat) (e : Env) (X : CSR ℝ) (given : Args) :
    Except Err (CSR ℝ) := do
  itemLearn nth createAsymmetric X (← weightedInit e "alpha" (← construct asymmetricCosineKnn given))

/-- the same for `JaccardKNNRecommender` -/
noncomputable def jaccardKnnFit (nth : Nat → SpVec ℝ → List Nat) (e : Env) (X : CSR ℝ) (given : Args) :
    Except Err (CSR ℝ) := do
  itemLearn nth createJaccard X (← jaccardInit e (← construct jaccardKnn given))

/-- the same for `TverskyIndexKNNRecommender` -/
noncomputable def tverskyKnnFit (nth : Nat → SpVec ℝ → List Nat) (e : Env) (X : CSR ℝ) (given : Args) :
    Except Err (CSR ℝ) := do
  itemLearn nth createTversky X (← tverskyInit e (← construct tverskyKnn given))

/-- the same for `CosineUserKNNRecommender` -/
noncomputable def cosineUserKnnFit (nth : Nat → SpVec ℝ → List Nat) (e : Env) (X : CSR ℝ) (given : Args) :
    Except Err (CSR ℝ) := do
  userLearn nth createCosine X (← weightedInit e "normalize" (← construct cosineUserKnn given))

/-- the same for `AsymmetricCosineUserKNNRecommender` -/
noncomputable def asymmetricUserKnnFit (nth : Nat → SpVec ℝ → List Nat) (e : Env) (X : CSR ℝ) (given : Args) :
    Except Err (CSR ℝ) := do
  userLearn nth createAsymmetric X (← weightedInit e "alpha" (← construct asymmetricCosineUserKnn given))

/-- `top_k` of P3alpha and RP3beta, where `None` stands for all items (p3.py:73, rp3.py:81) -/
def optSize : Val → Except Err (Option Nat)
  | .none => .ok none
  | v => (toSize v).map some

/-- the same for `P3alphaRecommender` (p3.py:52-76) -/
noncomputable def p3Fit (nth : Nat → SpVec ℝ → List Nat) (e : Env) (X : CSR ℝ) (given : Args) :
    Except Err (CSC ℝ) := do
  let p ← construct p3alpha given
  let n ← e.nThreads (← attr p "n_threads")
  let c ← call p3Sig [] [("alpha", ← attr p "alpha"), ("n_threads", n)]
  p3Learn nth (← toReal (← attr c "alpha")) X (← optSize (← attr p "top_k"))
    (← toBool (← attr p "normalize_weight")) (← toSize (← attr c "n_threads"))

/-- the same for `RP3betaRecommender` (rp3.py:58-84) -/
noncomputable def rp3Fit (nth : Nat → SpVec ℝ → List Nat) (e : Env) (X : CSR ℝ) (given : Args) :
    Except Err (CSC ℝ) := do
  let p ← construct rp3beta given
  let n ← e.nThreads (← attr p "n_threads")
  let c ← call rp3Sig [] [("alpha", ← attr p "alpha"), ("beta", ← attr p "beta"), ("n_threads", n)]
  rp3Learn nth (← toReal (← attr c "alpha")) (← toReal (← attr c "beta")) X (← optSize (← attr p "top_k"))
    (← toBool (← attr p "normalize_weight")) (← toSize (← attr c "n_threads"))

end Irspack.RecClasses
