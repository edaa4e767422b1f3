import Mathlib.Analysis.SpecialFunctions.Log.Basic
import Verif.Model.Ials

/-!
# `IALSRecommender` and the pickling of iALS objects
(`/repo/src/irspack/recommenders/ials.py`, `/repo/cpp_source/als/wrapper.cpp`)

Simplification: `astype(np.float32)` is the identity (real arithmetic).
-/

namespace Irspack.Ials

variable {K T : Nat}

/-! ## Regularisation scale -/

/-- `X_csr.indptr[1:] - X_csr.indptr[:-1]`: stored entries per row (ials.py:238) -/
def nnzRow (X : CSR ℝ) : List Nat := X.rows.map List.length

/-- `X_csc.indptr[1:] - X_csc.indptr[:-1]`: stored entries per column (ials.py:239) -/
def nnzCol (X : CSR ℝ) : List Nat :=
  (List.range X.cols).map (fun j => (X.rows.map (fun row => (row.filter (fun e => e.1 == j)).length)).sum)

/-- `compute_reg_scale` (ials.py:232-242) -/
noncomputable def computeRegScale (X : CSR ℝ) (alpha0 nu : ℝ) : ℝ :=
  ((nnzRow X).map (fun n : Nat => ((n : ℝ) + alpha0 * X.cols) ^ nu)).sum
    + ((nnzCol X).map (fun n : Nat => ((n : ℝ) + alpha0 * X.nrows) ^ nu)).sum

open Classical in
/-- `scaled_reg` (ials.py:412-418); Python raises `ZeroDivisionError` for a zero divisor. -/
noncomputable def scaledReg (X : CSR ℝ) (alpha0 reg nu : ℝ) : Option ℝ → Except Err ℝ
  | none => .ok reg
  | some nuStar =>
    if computeRegScale X alpha0 nu = 0 then .error .zeroDivisionError
    else .ok (reg * computeRegScale X alpha0 nuStar / computeRegScale X alpha0 nu)

/-! ## The recommender -/

/-- `IALSConfigScaling` (ials.py:206-208) -/
inductive Scaling where
  | none
  | log
  deriving DecidableEq

/-- The values of `_scale_X` (ials.py:437-446): the stored values are replaced, the structure is kept. -/
noncomputable def scaleX (s : Scaling) (epsilon : ℝ) (X : CSR ℝ) : CSR ℝ :=
  match s with
  | .none => X
  | .log => ⟨X.cols, X.rows.map (fun row => row.map (fun e => (e.1, Real.log (1 + e.2 / epsilon))))⟩

/-- the logarithms that `_scale_X` takes (ials.py:437-446) are those of positive numbers; otherwise numpy
goes on with `inf`, `-inf` or NaN -/
def LogDefined (s : Scaling) (epsilon : ℝ) (X : CSR ℝ) : Prop :=
  s = .log → ∀ row ∈ X.rows, ∀ e ∈ row, epsilon ≠ 0 ∧ 0 < 1 + e.2 / epsilon

open Classical in
/-- `_scale_X` (ials.py:437-446); where the code goes on with `inf` or NaN the model stops. -/
noncomputable def scaled (s : Scaling) (epsilon : ℝ) (X : CSR ℝ) : Except Err (CSR ℝ) :=
  if LogDefined s epsilon X then .ok (scaleX s epsilon X) else .error .nonFinite

/-- `str_to_solver_type` (ials.py:46-49); an unknown name is an attribute error, shown as
`valueError`. -/
def strToSolverType (t : String) : Except Err SolverType :=
  if t.toUpper = "CG" then .ok .cg
  else if t.toUpper = "CHOLESKY" then .ok .cholesky
  else if t.toUpper = "IALSPP" then .ok .ialspp
  else .error .valueError

/-- the arguments of `IALSRecommender` (ials.py:363-387) -/
structure RecArgs where
  X : CSR ℝ
  nComponents : Nat
  alpha0 : ℝ
  reg : ℝ
  nu : ℝ
  scaling : Scaling
  epsilon : ℝ
  initStd : ℝ
  solverName : String
  maxCgSteps : Nat
  subspaceDimension : Nat
  lossType : LossType
  nuStar : Option ℝ
  randomSeed : Int
  predictionMaxCgSteps : Nat
  predictionIteration : Nat
  userF : Option Features
  itemF : Option Features
  lambdaUser : ℝ
  lambdaItem : ℝ
  warmup : Nat

/-- an `IALSRecommender` after construction: its arguments, the solver type and the scaled
regularisation -/
structure Recommender where
  args : RecArgs
  solverType : SolverType
  scaledReg : ℝ

/-- `IALSRecommender.__init__` (ials.py:389-435).  The thread count is the number of workers of the
regions (`get_n_threads` is modelled with C56). -/
noncomputable def Recommender.new (a : RecArgs) : Except Err Recommender := do
  let st ← strToSolverType a.solverName
  let reg ← Ials.scaledReg a.X a.alpha0 a.reg a.nu a.nuStar
  if (a.userF.isSome = true ∨ a.itemF.isSome = true) ∧ a.solverName = "IALSPP" then
    throw .valueError
  return ⟨a, st, reg⟩

/-- the model configuration built by `IALSTrainer.__init__` (ials.py:92-105) -/
def Recommender.config (r : Recommender) : Config where
  K := r.args.nComponents
  alpha0 := r.args.alpha0
  reg := r.scaledReg
  nu := r.args.nu
  initStdev := r.args.initStd
  randomSeed := r.args.randomSeed
  lossType := r.args.lossType
  lambdaUser := r.args.lambdaUser
  lambdaItem := r.args.lambdaItem
  warmup := r.args.warmup

/-- the solver configuration used for training (ials.py:106-114) -/
def Recommender.trainSolver (r : Recommender) : SolverConfig :=
  ⟨r.solverType, r.args.maxCgSteps, r.args.subspaceDimension, 1⟩

/-- the solver configuration used for prediction (ials.py:130-138) -/
def Recommender.predictionSolver (r : Recommender) : SolverConfig :=
  ⟨r.solverType, r.args.predictionMaxCgSteps, r.args.subspaceDimension, r.args.predictionIteration⟩

/-- the core trainer made by `IALSTrainer.__init__` (ials.py:115-128) for the confidences `X` -/
noncomputable def Recommender.trainerOn (r : Recommender) (X : CSR ℝ) (u₀ v₀ : Nat → Vec K) :
    Except Err (Trainer K) :=
  match r.args.userF, r.args.itemF with
  | none, none => .ok (Trainer.create r.config X u₀ v₀)
  | uf, itf => Trainer.createWithFeatures r.config X
      (uf.getD ⟨r.args.X.nrows, 0, fun _ _ => 0⟩) (itf.getD ⟨r.args.X.cols, 0, fun _ _ => 0⟩) u₀ v₀

/-- the core trainer made by `_create_trainer` (ials.py:448-469) from the initial factors -/
noncomputable def Recommender.createTrainer (r : Recommender) (u₀ v₀ : Nat → Vec K) :
    Except Err (Trainer K) :=
  match scaled r.args.scaling r.args.epsilon r.args.X with
  | .error e => .error e
  | .ok X => r.trainerOn X u₀ v₀

/-- `compute_user_embedding` (ials.py:538-562) through `IALSTrainer.transform_user` (169-180) -/
noncomputable def Recommender.computeUserEmbedding (ω : Oracle T) (r : Recommender) (tr : Trainer K)
    (X : CSR ℝ) (feat : Option Features) : Except Err (Factor K) :=
  match scaled r.args.scaling r.args.epsilon X with
  | .error e => .error e
  | .ok X =>
    match feat with
    | none => tr.transformUser ω r.predictionSolver X
    | some feat => tr.transformUserWithFeature ω r.predictionSolver X feat

/-- `compute_item_embedding` (ials.py:583-608) through `IALSTrainer.transform_item` (182-193) -/
noncomputable def Recommender.computeItemEmbedding (ω : Oracle T) (r : Recommender) (tr : Trainer K)
    (X : CSR ℝ) (feat : Option Features) : Except Err (Factor K) :=
  match scaled r.args.scaling r.args.epsilon X with
  | .error e => .error e
  | .ok X =>
    match feat with
    | none => tr.transformItem ω r.predictionSolver X
    | some feat => tr.transformItemWithFeature ω r.predictionSolver X feat

/-- `A.dot(B.T)`: `A.n` rows of scores for the `B.n` items (ials.py:478-480, 532) -/
def embeddingScores (A B : Factor K) : Nat × (Nat → Nat → ℝ) :=
  (A.n, fun u i => if i < B.n then ∑ k, A.row u k * B.row i k else 0)

/-- `get_score` (ials.py:477-481): fancy indexing with user indices, rejected out of range.
Simplification: negative indices, which numpy counts from the end, are not modelled. -/
def getScore (tr : Trainer K) (users : List Nat) : Except Err (List (Nat → ℝ)) :=
  if users.all (fun u => decide (u < tr.user.n)) = true then
    .ok (users.map (fun u => fun i => if i < tr.item.n then ∑ k, tr.user.row u k * tr.item.row i k else 0))
  else .error .indexError

/-- `get_score_cold_user` (ials.py:486-490) -/
noncomputable def Recommender.getScoreColdUser (ω : Oracle T) (r : Recommender) (tr : Trainer K)
    (X : CSR ℝ) (feat : Option Features) : Except Err (Nat × (Nat → Nat → ℝ)) := do
  let e ← r.computeUserEmbedding ω tr X feat
  return embeddingScores e tr.item

/-- a matrix without stored entries: `sps.csr_matrix((rows, cols))` (ials.py:574, 620) -/
def emptyCSR (rows cols : Nat) : CSR ℝ := ⟨cols, List.replicate rows []⟩

/-- `compute_user_embedding_from_features` (ials.py:564-575) -/
noncomputable def Recommender.computeUserEmbeddingFromFeatures (ω : Oracle T) (r : Recommender)
    (tr : Trainer K) (feat : Features) : Except Err (Factor K) :=
  r.computeUserEmbedding ω tr (emptyCSR feat.rows r.args.X.cols) (some feat)

/-- `compute_item_embedding_from_features` (ials.py:610-621) -/
noncomputable def Recommender.computeItemEmbeddingFromFeatures (ω : Oracle T) (r : Recommender)
    (tr : Trainer K) (feat : Features) : Except Err (Factor K) :=
  r.computeItemEmbedding ω tr (emptyCSR r.args.X.nrows feat.rows) (some feat)

/-- `get_score_cold_user_with_item_features` (ials.py:492-524): the scores of the known items followed
by those of the additional items. -/
noncomputable def Recommender.getScoreColdUserWithItemFeatures (ω : Oracle T) (r : Recommender)
    (tr : Trainer K) (X : CSR ℝ) (feat : Features) : Except Err (Nat × (Nat → Nat → ℝ)) :=
  if r.args.itemF.isNone = true then .error .notImplemented
  else do
    let items ← if feat.rows ≠ 0 then r.computeItemEmbeddingFromFeatures (ω.at 0) tr feat
      else .ok ⟨0, fun _ => 0⟩
    let users ← r.computeUserEmbedding (ω.at 1) tr X none
    let known := (embeddingScores users tr.item).2
    let additional := (embeddingScores users items).2
    return (users.n, fun u i => if i < tr.item.n then known u i else additional u (i - tr.item.n))

/-- `get_score_cold_user_from_features` (ials.py:577-581) -/
noncomputable def Recommender.getScoreColdUserFromFeatures (ω : Oracle T) (r : Recommender)
    (tr : Trainer K) (feat : Features) : Except Err (Nat × (Nat → Nat → ℝ)) := do
  let e ← r.computeUserEmbeddingFromFeatures ω tr feat
  return embeddingScores e tr.item

/-- `get_score_from_item_embedding` (ials.py:629-635): fancy indexing with user indices, as in `getScore`;
numpy rejects an embedding of another width, which is a matter of types here. -/
def getScoreFromItemEmbedding (tr : Trainer K) (users : List Nat) (items : Factor K) :
    Except Err (List (Nat → ℝ)) :=
  if users.all (fun u => decide (u < tr.user.n)) = true then
    .ok (users.map (fun u => fun i => if i < items.n then ∑ k, tr.user.row u k * items.row i k else 0))
  else .error .indexError

/-- `get_score_from_item_features` (ials.py:623-627) -/
noncomputable def Recommender.getScoreFromItemFeatures (ω : Oracle T) (r : Recommender) (tr : Trainer K)
    (users : List Nat) (feat : Features) : Except Err (List (Nat → ℝ)) := do
  let items ← r.computeItemEmbeddingFromFeatures ω tr feat
  getScoreFromItemEmbedding tr users items

/-! ## Pickling -/

/-- the tuple of `IALSModelConfig.__getstate__` (wrapper.cpp:53-61) -/
def Config.getstate (c : Config) : Nat × ℝ × ℝ × ℝ × ℝ × Int × LossType × ℝ × ℝ × Nat :=
  (c.K, c.alpha0, c.reg, c.nu, c.initStdev, c.randomSeed, c.lossType, c.lambdaUser, c.lambdaItem, c.warmup)

/-- `IALSModelConfig.__setstate__` (wrapper.cpp:62-71), with the argument order of the constructor
(IALSLearningConfig.hpp:16-25) -/
def Config.setstate : Nat × ℝ × ℝ × ℝ × ℝ × Int × LossType × ℝ × ℝ × Nat → Config
  | (K, alpha0, reg, nu, initStdev, randomSeed, lossType, lambdaUser, lambdaItem, warmup) =>
    { K := K, alpha0 := alpha0, reg := reg, nu := nu, initStdev := initStdev, randomSeed := randomSeed,
      lossType := lossType, lambdaUser := lambdaUser, lambdaItem := lambdaItem, warmup := warmup }

/-- the tuple of `IALSSolverConfig.__getstate__`; the first component is `n_threads`
(wrapper.cpp:99-105) -/
def SolverConfig.getstate (nThreads : Nat) (c : SolverConfig) : Nat × SolverType × Nat × Nat × Nat :=
  (nThreads, c.solverType, c.maxCgSteps, c.subspaceDimension, c.iteration)

/-- `IALSSolverConfig.__setstate__` (wrapper.cpp:106-115) -/
def SolverConfig.setstate : Nat × SolverType × Nat × Nat × Nat → Nat × SolverConfig
  | (nThreads, st, cg, sub, it) => (nThreads, ⟨st, cg, sub, it⟩)

/-- a component of a trainer's pickle state -/
inductive StateVal (K : Nat) where
  | config (c : Nat × ℝ × ℝ × ℝ × ℝ × Int × LossType × ℝ × ℝ × Nat)
  | factor (f : Factor K)
  | weight (w : Weight K)

/-- `IALSTrainer.__getstate__` (wrapper.cpp:162-166) -/
def Trainer.getstate (tr : Trainer K) : List (StateVal K) :=
  [.config tr.cfg.getstate, .factor tr.user, .factor tr.item, .weight tr.userW, .weight tr.itemW]

/-- what the constructor used when deserialising leaves behind (IALSTrainer.hpp:745-756): no interactions,
no features.  The Gram matrices it prepares are prepared again by every call that reads them. -/
def Trainer.restored (cfg : Config) (user item : Factor K) : Trainer K where
  cfg := cfg
  user := user
  item := item
  userW := Weight.none
  itemW := Weight.none
  X := ⟨0, []⟩
  Xt := ⟨0, []⟩
  userF := Features.none
  itemF := Features.none
  featureAware := false
  userCache := none
  itemCache := none
  epoch := 0

/-- that constructor (IALSTrainer.hpp:745-756): it prepares the Gram matrices with as many threads as
`std::thread::hardware_concurrency()` says there are processors.  That function returns 0 where the number
is not known, and `prepare_p` throws on 0 threads. -/
def Trainer.deserialize (procs : Nat) (cfg : Config) (user item : Factor K) : Except Err (Trainer K) :=
  if procs = 0 then .error .invalidArgument else .ok (Trainer.restored cfg user item)

/-- `IALSTrainer.__setstate__` (wrapper.cpp:167-181) on a machine that reports `procs` processors: three
components (pickles of older versions) or five; a component of the wrong kind is a failed cast. -/
def Trainer.setstate (procs : Nat) : List (StateVal K) → Except Err (Trainer K)
  | [.config c, .factor u, .factor i] => Trainer.deserialize procs (Config.setstate c) u i
  | [.config c, .factor u, .factor i, .weight wu, .weight wi] =>
    match Trainer.deserialize procs (Config.setstate c) u i with
    | .error e => .error e
    | .ok tr => .ok { tr with userW := wu, itemW := wi }
  | _ => .error .runtimeError

/-- the dictionary written by `save_state` (ials.py:151-161); older ones lack the weights -/
structure SavedState (K : Nat) where
  user : Factor K
  item : Factor K
  weights : Option (Weight K × Weight K)

/-- `save_state` (ials.py:151-161) -/
def Trainer.saveState (tr : Trainer K) : SavedState K := ⟨tr.user, tr.item, some (tr.userW, tr.itemW)⟩

/-- `load_state` (ials.py:140-146) -/
def Trainer.loadState (tr : Trainer K) (s : SavedState K) : Trainer K :=
  match s.weights with
  | some w => { tr with user := s.user, item := s.item, userW := w.1, itemW := w.2 }
  | none => { tr with user := s.user, item := s.item }

end Irspack.Ials
