import Verif.Model.Ease
import Verif.Model.MultVAE
import Verif.Model.SimRecommender
import Verif.Model.Slim

/-!
# From the arguments of the other recommenders to their solvers

(/repo/src/irspack/recommenders/slim.py, dense_slim.py, edlae.py, truncsvd.py, nmf.py, bpr.py, multvae.py
and /repo/cpp_source/util.cpp:31-39.)

scikit-learn, LightFM and haiku are arbitrary functions of what they are asked for.
-/

namespace Irspack.RecClasses

/-- a number of Python; other values do not support the arithmetic (`TypeError`) -/
def toNum : Val → Except Err ℚ
  | .num q => .ok q
  | _ => .error .typeError

/-- to `int64_t`.  Simplification: integers are unbounded. -/
def toInt : Val → Except Err ℤ
  | .num q => if q.den = 1 then .ok q.num else .error .typeError
  | _ => .error .typeError

/-! ## SLIM -/

/-- `SLIMRecommender.__init__` (slim.py:69-76) -/
def slimInit (e : Env) (p : Args) : Except Err Args := do
  return [("alpha", ← attr p "alpha"), ("l1_ratio", ← attr p "l1_ratio"),
    ("positive_only", ← attr p "positive_only"), ("n_threads", ← e.nThreads (← attr p "n_threads")),
    ("n_iter", ← attr p "n_iter"), ("tol", ← attr p "tol"), ("top_k", ← attr p "top_k")]

/-- the names under which `slim_weight_positive_only` and `slim_weight_allow_negative` take the arguments
of the C++ function after the matrix, in its order (util.cpp:31-39) -/
def slimSig : Signature :=
  [("n_threads", none), ("n_iter", none), ("l2_coeff", none), ("l1_coeff", none), ("tol", none),
   ("top_k", some (.num (-1)))]

/-- What is fixed by the build or decided while the workers run: the width of a block, the tolerance of
`isZero`, the shuffles, the sort, and the interleaving for each number of threads. -/
structure SlimRun where
  blockSize : Nat
  prec : ℝ
  shuffles : Nat → List Nat
  srt : List (ℝ × Nat) → List (ℝ × Nat)
  sched : (T : Nat) → List (Fin T)

/-- what the workers of SLIM leave behind, with their number -/
abbrev SlimResult := (T : Nat) × WorkQueue.State T (Slim.Worker ℝ) Unit

/-- the C++ function, by position (util.hpp:228-232, 240-252): converts its arguments and runs -/
noncomputable def slimEntry (r : SlimRun) (X : CSC ℝ) (positiveOnly : Bool) (nThreads nIter l2 l1 tol topK : Val) :
    Except Err SlimResult := do
  let T ← toSize nThreads
  let n ← toSize nIter
  let l2 ← toReal l2
  let l1 ← toReal l1
  let tol ← toReal tol
  let k ← toInt topK
  let s ← Slim.slim (T := T) ⟨positiveOnly, r.blockSize, n, l2, l1, tol, r.prec, k⟩ X r.shuffles r.srt (r.sched T)
  return ⟨T, s⟩

/-- a call of `slim_weight_…(X, **kw)`: the values matched with the names, handed over by position -/
noncomputable def slimCall (r : SlimRun) (X : CSC ℝ) (positiveOnly : Bool) (kw : Args) : Except Err SlimResult := do
  let c ← call slimSig [] kw
  match c.map (·.2) with
  | [a1, a2, a3, a4, a5, a6] => slimEntry r X positiveOnly a1 a2 a3 a4 a5 a6
  | _ => .error .typeError

/-- `SLIMRecommender._learn` (slim.py:78-103) -/
noncomputable def slimLearn (r : SlimRun) (X : CSC ℝ) (self : Args) : Except Err SlimResult := do
  let alpha ← toNum (← attr self "alpha")
  let l1Ratio ← toNum (← attr self "l1_ratio")
  let l2 := X.rows * alpha * (1 - l1Ratio)
  let l1 := X.rows * alpha * l1Ratio
  let topK ← attr self "top_k"
  let topK := if topK = .none then .num (-1) else topK
  let pos ← toBool (← attr self "positive_only")
  slimCall r X pos [("n_threads", ← attr self "n_threads"), ("n_iter", ← attr self "n_iter"),
    ("l2_coeff", .num l2), ("l1_coeff", .num l1), ("tol", ← attr self "tol"), ("top_k", topK)]

/-- `SLIMRecommender(X, **given).learn()` -/
noncomputable def slimFit (r : SlimRun) (e : Env) (X : CSC ℝ) (given : Args) : Except Err SlimResult := do
  slimLearn r X (← slimInit e (← construct slim given))

/-! ## DenseSLIM and EDLAE -/

/-- `DenseSLIMRecommender(X, **given).learn()` (dense_slim.py:34-53) -/
noncomputable def denseSlimFit {U F : Nat} (X : Matrix (Fin U) (Fin F) ℝ) (given : Args) :
    Except Err (Matrix (Fin F) (Fin F) ℝ) := do
  let p ← construct denseSlim given
  let self : Args := [("reg", ← attr p "reg")]
  Ease.denseSlim X (← toReal (← attr self "reg"))

/-- `EDLAERecommender(X, **given).learn()` (edlae.py:41-69) -/
noncomputable def edlaeFit {U F : Nat} (X : Matrix (Fin U) (Fin F) ℝ) (given : Args) :
    Except Err (Matrix (Fin F) (Fin F) ℝ) := do
  let p ← construct edlae given
  let self : Args := [("reg", ← attr p "reg"), ("dropout_p", ← attr p "dropout_p")]
  Ease.edlae X (← toReal (← attr self "reg")) (← toReal (← attr self "dropout_p"))

/-! ## TruncatedSVD and NMF -/

/-- `TruncatedSVDRecommender(X, **given).learn()` (truncsvd.py:48-65, 79-83): what scikit-learn's
`TruncatedSVD(**kw).fit_transform(X)` leaves.  The assertion of the constructor comes after the matching of
the arguments. -/
def svdFit {M : Type} (svd : Args → CSR ℝ → Except Err M) (X : CSR ℝ) (given : Args) : Except Err M := do
  let p ← construct truncatedSvd given
  let k ← Score.truncatedComponents X.cols (← toSize (← attr p "n_components"))
  let self : Args := [("n_components", .num k), ("random_seed", ← attr p "random_seed")]
  svd [("n_components", ← attr self "n_components"), ("random_state", ← attr self "random_seed")] X

/-- scikit-learn's `NMF`: the constructor, `fit`, and `fit_transform` with the factors -/
structure NmfLib (S M : Type) where
  make : Args → Except Err S
  fit : S → CSR ℝ → Except Err S
  fitTransform : S → CSR ℝ → Except Err (S × M)

/-- `NMFRecommender(X, **given).learn()` (nmf.py:32-64): the fitted model and the factors `W`, `H`.
`old` says that scikit-learn is older than 1.0. -/
def nmfFit {S M : Type} (lib : NmfLib S M) (old : Bool) (X : CSR ℝ) (given : Args) : Except Err (S × M) := do
  let p ← construct nmf given
  let self : Args := [("n_components", ← attr p "n_components"), ("alpha", ← attr p "alpha"),
    ("l1_ratio", ← attr p "l1_ratio"), ("beta_loss", ← attr p "beta_loss"), ("init", ← attr p "init")]
  let alphaName := if old then "alpha" else "alpha_W"
  let params : Args := [("n_components", ← attr self "n_components"), ("init", ← attr self "init"),
    ("l1_ratio", ← attr self "l1_ratio"), ("beta_loss", ← attr self "beta_loss"), ("random_state", .num 42)]
  let model ← lib.make (params ++ [(alphaName, ← attr self "alpha")])
  let model ← lib.fit model X
  lib.fitTransform model X

/-! ## BPRFM -/

/-- LightFM: the constructor and `fit_partial(X, **kw)` -/
structure FmLib (S : Type) where
  make : Args → Except Err S
  fitPartial : S → CSR ℝ → Args → Except Err S

/-- `BPRFMTrainer.__init__` (bpr.py:23-31), without the matrix -/
def bprTrainerSig : Signature :=
  [("n_components", none), ("item_alpha", none), ("user_alpha", none), ("loss", none), ("n_threads", none)]

/-- `BPRFMTrainer` (bpr.py:22-42): the factorisation machine and `self.n_threads` -/
def bprTrainer {S : Type} (lib : FmLib S) (pos : List Val) : Except Err (S × Val) := do
  let p ← call bprTrainerSig pos []
  let fm ← lib.make [("no_components", ← attr p "n_components"), ("item_alpha", ← attr p "item_alpha"),
    ("user_alpha", ← attr p "user_alpha"), ("loss", ← attr p "loss")]
  return (fm, ← attr p "n_threads")

/-- `run_epoch` (bpr.py:41-42) -/
def bprEpoch {S : Type} (lib : FmLib S) (X : CSR ℝ) (tr : S × Val) : Except Err (S × Val) := do
  return (← lib.fitPartial tr.1 X [("num_threads", tr.2)], tr.2)

/-- `_learn` of the recommenders with epochs (base_earlystop.py:103-104, 116-122, with no evaluator):
`max_epoch` rounds of `run_epoch` -/
def epochs {S : Type} (step : S → Except Err S) : Nat → S → Except Err S
  | 0, s => .ok s
  | n + 1, s => do epochs step n (← step s)

/-- `BPRFMRecommender(X, **given).learn()` (bpr.py:107-138; the check of `loss` is in `construct`):
the factorisation machine -/
def bprFit {S : Type} (lib : FmLib S) (e : Env) (X : CSR ℝ) (given : Args) : Except Err S := do
  let p ← construct bprfm given
  let self : Args := [("train_epochs", ← attr p "train_epochs"), ("n_components", ← attr p "n_components"),
    ("item_alpha", ← attr p "item_alpha"), ("user_alpha", ← attr p "user_alpha"), ("loss", ← attr p "loss"),
    ("n_threads", ← e.nThreads (← attr p "n_threads"))]
  let tr ← bprTrainer lib [← attr self "n_components", ← attr self "item_alpha", ← attr self "user_alpha",
    ← attr self "loss", ← attr self "n_threads"]
  let tr ← epochs (bprEpoch lib X) (← toSize (← attr self "train_epochs")) tr
  return tr.1

/-! ## Mult-VAE -/

/-- the outputs of the linear layers of a network, in order (`BaseMLP`, multvae.py:22-41) -/
def mlpLayout (outputDim : Nat) (hiddenDims : List Nat) : List Nat := hiddenDims ++ [outputDim]

/-- the layers of `EncoderNN` and `DecoderNN`, and the dimension at which the output of the encoder is cut
(multvae.py:44-47, 57-64, 92-102) -/
structure VaeLayout where
  encoder : List Nat
  decoder : List Nat
  latent : Nat
  deriving DecidableEq

/-- `MultVAE.__init__` (multvae.py:87-102) -/
def vaeLayout (nObs latentDim : Nat) (encHidden decHidden : List Nat) : VaeLayout :=
  ⟨mlpLayout (2 * latentDim) encHidden, mlpLayout nObs decHidden, latentDim⟩

/-- haiku and optax: the initial parameters of a network, the initial state of `adam(learning_rate)`, and
the compiled update (multvae.py:164-174, 176-222) -/
structure VaeLib (O : Type) where
  init : VaeLayout → MultVAE.Params
  adamInit : ℝ → MultVAE.Params → O
  update : VaeLayout → (learningRate : ℝ) → (dropout : ℝ) → MultVAE.Params → Nat → O → List (Nat → ℝ) → ℝ →
    MultVAE.Params × O

/-- `MultVAETrainer.__init__` (multvae.py:129-141), without the matrix -/
def vaeTrainerSig : Signature :=
  [("dim_z", none), ("enc_hidden_dim", none), ("dec_hidden_dim", none), ("dropout_p", none),
   ("l2_regularizer", none), ("kl_anneal_goal", none), ("anneal_end_epoch", none), ("minibatch_size", none),
   ("learning_rate", none)]

/-- The attributes of a trainer that stay as they are (multvae.py:142-159, 187). -/
structure VaeTrainer where
  cfg : MultVAE.Config
  layout : VaeLayout
  dropout : ℝ
  learningRate : ℝ

/-- the constructor up to the network (multvae.py:142-162, 176-187) -/
noncomputable def vaeTrainer (nItems : Nat) (pos : List Val) : Except Err VaeTrainer := do
  let p ← call vaeTrainerSig pos []
  let enc ← attr p "enc_hidden_dim"
  let dec ← attr p "dec_hidden_dim"
  let dec := if dec = .none then enc else dec
  let layout := vaeLayout nItems (← toSize (← attr p "dim_z")) [← toSize enc] [← toSize dec]
  let cfg : MultVAE.Config := ⟨← toReal (← attr p "kl_anneal_goal"), ← toSize (← attr p "anneal_end_epoch"),
    ← toSize (← attr p "minibatch_size"), ← toReal (← attr p "l2_regularizer")⟩
  return ⟨cfg, layout, ← toReal (← attr p "dropout_p"), ← toReal (← attr p "learning_rate")⟩

/-- `MultVAERecommender(X, **given).learn()` (multvae.py:329-372 and base_earlystop.py:103-104): the state
of the trainer after all epochs; `orders` are the shuffled lists of users, epoch by epoch. -/
noncomputable def vaeFit {O : Type} (lib : VaeLib O) (orders : Nat → List Nat) (X : CSR ℝ) (given : Args) :
    Except Err (MultVAE.State O) := do
  let p ← construct multVae given
  let self : Args := [("train_epochs", ← attr p "train_epochs"), ("dim_z", ← attr p "dim_z"),
    ("enc_hidden_dims", ← attr p "enc_hidden_dims"), ("dec_hidden_dims", ← attr p "dec_hidden_dims"),
    ("kl_anneal_goal", ← attr p "kl_anneal_goal"), ("anneal_end_epoch", ← attr p "anneal_end_epoch"),
    ("minibatch_size", ← attr p "minibatch_size"), ("dropout_p", ← attr p "dropout_p"),
    ("l2_regularizer", ← attr p "l2_regularizer"), ("learning_rate", ← attr p "learning_rate")]
  let tr ← vaeTrainer X.cols [← attr self "dim_z", ← attr self "enc_hidden_dims", ← attr self "dec_hidden_dims",
    ← attr self "dropout_p", ← attr self "l2_regularizer", ← attr self "kl_anneal_goal",
    ← attr self "anneal_end_epoch", ← attr self "minibatch_size", ← attr self "learning_rate"]
  let params := lib.init tr.layout
  let s ← MultVAE.create tr.cfg params (lib.adamInit tr.learningRate params)
  let n ← toSize (← attr self "train_epochs")
  let r ← epochs (fun (q : MultVAE.State O × Nat) => do
    let s ← MultVAE.runEpoch tr.cfg X (lib.update tr.layout tr.learningRate tr.dropout) (orders q.2) q.1
    return (s, q.2 + 1)) n (s, 0)
  return r.1

end Irspack.RecClasses
