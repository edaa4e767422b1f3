import Verif.Model.Builders
import Verif.Model.LibRecommender

/-!
# From the arguments of `IALSRecommender` to training

(/repo/src/irspack/recommenders/ials.py and base_earlystop.py.)

The keyword arguments, the attributes of the recommender, the configurations made by the builders, the native
trainer, and the epochs.
-/

namespace Irspack.RecClasses

open Ials Ials.Builders

/-- the names of `IALSConfigScaling` (ials.py:206-208); another name is a `KeyError` -/
def toScaling : Val → Except Err Scaling
  | .str s => if s = "none" then .ok .none else if s = "log" then .ok .log else .error .keyError
  | _ => .error .keyError

/-- the argument of `.upper()` (ials.py:47, 53) -/
def toStr : Val → Except Err String
  | .str s => .ok s
  | _ => .error .attributeError

/-- an optional real number (ials.py:412) -/
noncomputable def toOptReal : Val → Except Err (Option ℝ)
  | .none => .ok none
  | v => (toReal v).map some

/-- the attributes set by `IALSRecommender.__init__` (ials.py:391-428), except for the matrices and for those
that are computed from others; `n_threads` is resolved (ials.py:408) -/
def ialsInit (e : Env) (p : Args) : Except Err Args := do
  return [("train_epochs", ← attr p "train_epochs"), ("n_components", ← attr p "n_components"),
    ("alpha0", ← attr p "alpha0"), ("reg", ← attr p "reg"), ("nu", ← attr p "nu"),
    ("confidence_scaling", ← attr p "confidence_scaling"), ("epsilon", ← attr p "epsilon"),
    ("init_std", ← attr p "init_std"), ("solver_type", ← attr p "solver_type"),
    ("max_cg_steps", ← attr p "max_cg_steps"),
    ("ialspp_subspace_dimension", ← attr p "ialspp_subspace_dimension"),
    ("random_seed", ← attr p "random_seed"), ("n_threads", ← e.nThreads (← attr p "n_threads")),
    ("loss_type", ← attr p "loss_type"), ("nu_star", ← attr p "nu_star"),
    ("prediction_time_max_cg_steps", ← attr p "prediction_time_max_cg_steps"),
    ("prediction_time_ialspp_iteration", ← attr p "prediction_time_ialspp_iteration"),
    ("lambda_user_feature", ← attr p "lambda_user_feature"),
    ("lambda_item_feature", ← attr p "lambda_item_feature"),
    ("feature_warmup_epochs", ← attr p "feature_warmup_epochs")]

/-- The attributes with their types (ials.py:391-428).  Simplification: a value of the wrong type is refused
here, where the code hands some on until the builders refuse them in `learn`. -/
noncomputable def ialsArgs (X : CSR ℝ) (userF itemF : Option Features) (self : Args) : Except Err RecArgs := do
  return {
    X := X
    nComponents := ← toSize (← attr self "n_components")
    alpha0 := ← toReal (← attr self "alpha0")
    reg := ← toReal (← attr self "reg")
    nu := ← toReal (← attr self "nu")
    scaling := ← toScaling (← attr self "confidence_scaling")
    epsilon := ← toReal (← attr self "epsilon")
    initStd := ← toReal (← attr self "init_std")
    solverName := ← toStr (← attr self "solver_type")
    maxCgSteps := ← toSize (← attr self "max_cg_steps")
    subspaceDimension := ← toSize (← attr self "ialspp_subspace_dimension")
    lossType := ← strToLossType (← toStr (← attr self "loss_type"))
    nuStar := ← toOptReal (← attr self "nu_star")
    randomSeed := ← toInt (← attr self "random_seed")
    predictionMaxCgSteps := ← toSize (← attr self "prediction_time_max_cg_steps")
    predictionIteration := ← toSize (← attr self "prediction_time_ialspp_iteration")
    userF := userF
    itemF := itemF
    lambdaUser := ← toReal (← attr self "lambda_user_feature")
    lambdaItem := ← toReal (← attr self "lambda_item_feature")
    warmup := ← toSize (← attr self "feature_warmup_epochs") }

/-- a constructed recommender with `n_threads` and `train_epochs` -/
structure IalsMade where
  model : Recommender
  nThreads : Nat
  trainEpochs : Nat

/-- `IALSRecommender(X, user_features=userF, item_features=itemF, **given)` (ials.py:363-435) -/
noncomputable def ialsMake (e : Env) (X : CSR ℝ) (userF itemF : Option Features) (given : Args) :
    Except Err IalsMade := do
  let self ← ialsInit e (← construct ials given)
  let r ← Recommender.new (← ialsArgs X userF itemF self)
  return ⟨r, ← toSize (← attr self "n_threads"), ← toSize (← attr self "train_epochs")⟩

/-- What is decided while the native code runs: what the binding hands back for a builder, the initial factors
(`Model/IalsInit`), and the work of the threads, epoch by epoch. -/
structure IalsRun where
  returned : Returned
  user₀ : (K : Nat) → Nat → Vec K
  item₀ : (K : Nat) → Nat → Vec K
  oracle : (T : Nat) → Nat → Oracle T

/-- `IALSTrainer.__init__` (ials.py:70-138) as called by `_create_trainer` (ials.py:448-469): the
configurations and the native trainer.  Simplification: exact arithmetic, so that `astype(np.float32)` and the
conversions to `float` are the identity. -/
noncomputable def ialsTrainer (run : IalsRun) (m : IalsMade) :
    Except Err (Configs × ((K : Nat) × Trainer K)) := do
  let c ← trainerConfigs id run.returned (argsOf m.model m.nThreads)
  let X ← scaled m.model.args.scaling m.model.args.epsilon m.model.args.X
  let K := c.model.K
  match m.model.args.userF, m.model.args.itemF with
  | none, none => return (c, ⟨K, Trainer.create c.model X (run.user₀ K) (run.item₀ K)⟩)
  | uf, itf =>
    let tr ← Trainer.createWithFeatures c.model X (uf.getD ⟨m.model.args.X.nrows, 0, fun _ _ => 0⟩)
      (itf.getD ⟨m.model.args.X.cols, 0, fun _ _ => 0⟩) (run.user₀ K) (run.item₀ K)
    return (c, ⟨K, tr⟩)

/-- `run_epoch` (ials.py:163-164) -/
noncomputable def ialsEpoch (run : IalsRun) (c : Configs) (k : Nat) (tr : (K : Nat) × Trainer K) :
    Except Err ((K : Nat) × Trainer K) := do
  let t ← tr.2.step (run.oracle c.train.1 k) c.train.2
  return ⟨tr.1, t⟩

/-- an epoch with its number -/
noncomputable def ialsNext (run : IalsRun) (c : Configs) (q : ((K : Nat) × Trainer K) × Nat) :
    Except Err (((K : Nat) × Trainer K) × Nat) := do
  return (← ialsEpoch run c q.2 q.1, q.2 + 1)

/-- `IALSRecommender(X, …).learn()` without an evaluator (base_earlystop.py:103-104, 116-122): the
configurations and the trainer after `train_epochs` epochs -/
noncomputable def ialsFit (run : IalsRun) (e : Env) (X : CSR ℝ) (userF itemF : Option Features) (given : Args) :
    Except Err (Configs × ((K : Nat) × Trainer K)) := do
  let m ← ialsMake e X userF itemF given
  let ct ← ialsTrainer run m
  let r ← epochs (ialsNext run ct.1) m.trainEpochs (ct.2, 0)
  return (ct.1, r.1)

end Irspack.RecClasses
