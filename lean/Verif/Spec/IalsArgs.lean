import Verif.Model.IalsArgs
import Verif.Spec.IalsModel
import Verif.Spec.LibRecommender

/-!
# What the arguments of `IALSRecommender` should mean
-/

namespace Irspack.RecClasses

open Ials Spec.Ials

/-- the hyperparameters of iALS -/
structure IalsSettings where
  nComponents : Nat
  alpha0 : ℚ
  reg : ℚ
  nu : ℚ
  logScaling : Bool
  epsilon : ℚ
  initStd : ℚ
  solver : SolverType
  maxCgSteps : Nat
  subspaceDimension : Nat
  original : Bool
  nuStar : Option ℚ
  seed : ℤ
  threads : Nat
  epochs : Nat
  predictionMaxCgSteps : Nat
  predictionIteration : Nat
  lambdaUser : ℚ
  lambdaItem : ℚ
  warmup : Nat

/-- the name of a solver, in capitals -/
def solverName : SolverType → String
  | .cg => "CG"
  | .cholesky => "CHOLESKY"
  | .ialspp => "IALSPP"

/-- the value that stands for an optional real number -/
def optionalNum : Option ℚ → Val
  | none => .none
  | some q => .num q

/-- The keyword arguments `given`, with the documented defaults for those left out, say `s`; solver and loss are
named in any capitalisation, the solver by `name`. -/
structure Says (e : Env) (given : Args) (name : String) (s : IalsSettings) : Prop where
  only : Only given ["n_components", "alpha0", "reg", "nu", "confidence_scaling", "epsilon", "init_std",
    "solver_type", "max_cg_steps", "ialspp_subspace_dimension", "loss_type", "nu_star", "random_seed", "n_threads",
    "train_epochs", "prediction_time_max_cg_steps", "prediction_time_ialspp_iteration", "lambda_user_feature",
    "lambda_item_feature", "feature_warmup_epochs"]
  nComponents : Argument given "n_components" (.num 20) (.num s.nComponents)
  alpha0 : Argument given "alpha0" (.num 0) (.num s.alpha0)
  reg : Argument given "reg" (.num (1 / 1000)) (.num s.reg)
  nu : Argument given "nu" (.num 1) (.num s.nu)
  scaling : Argument given "confidence_scaling" (.str "none") (.str (if s.logScaling then "log" else "none"))
  epsilon : Argument given "epsilon" (.num 1) (.num s.epsilon)
  initStd : Argument given "init_std" (.num (1 / 10)) (.num s.initStd)
  solver : Argument given "solver_type" (.str "CG") (.str name) ∧ name.toUpper = solverName s.solver
  maxCgSteps : Argument given "max_cg_steps" (.num 3) (.num s.maxCgSteps)
  subspaceDimension : Argument given "ialspp_subspace_dimension" (.num 64) (.num s.subspaceDimension)
  loss : ∃ l : String, Argument given "loss_type" (.str "IALSPP") (.str l) ∧
    l.toUpper = if s.original then "ORIGINAL" else "IALSPP"
  nuStar : Argument given "nu_star" .none (optionalNum s.nuStar)
  seed : Argument given "random_seed" (.num 42) (.num s.seed)
  threads : ThreadsAre e given s.threads
  epochs : Argument given "train_epochs" (.num 16) (.num s.epochs)
  predictionMaxCgSteps : Argument given "prediction_time_max_cg_steps" (.num 5) (.num s.predictionMaxCgSteps)
  predictionIteration : Argument given "prediction_time_ialspp_iteration" (.num 7) (.num s.predictionIteration)
  lambdaUser : Argument given "lambda_user_feature" (.num 0) (.num s.lambdaUser)
  lambdaItem : Argument given "lambda_item_feature" (.num 0) (.num s.lambdaItem)
  warmup : Argument given "feature_warmup_epochs" (.num 0) (.num s.warmup)

/-- counts fit a machine word, and the seed a C++ `int` -/
structure IalsSettings.Fit (s : IalsSettings) : Prop where
  nComponents : s.nComponents < 2 ^ 64
  maxCgSteps : s.maxCgSteps < 2 ^ 64
  subspaceDimension : s.subspaceDimension < 2 ^ 64
  predictionMaxCgSteps : s.predictionMaxCgSteps < 2 ^ 64
  predictionIteration : s.predictionIteration < 2 ^ 64
  warmup : s.warmup < 2 ^ 64
  threads : s.threads < 2 ^ 64
  seed : -(2 ^ 31) ≤ s.seed ∧ s.seed < 2 ^ 31

/-- the confidence of an interaction: its value, or `log (1 + value / epsilon)` -/
noncomputable def IalsSettings.confidence (s : IalsSettings) (x : ℝ) : ℝ :=
  if s.logScaling then Real.log (1 + x / s.epsilon) else x

/-- The confidence of every stored value is a number: under the scaling `log`, every value `x` has
`0 < 1 + x / epsilon`. -/
def IalsSettings.Scalable (s : IalsSettings) (X : CSR ℝ) : Prop :=
  s.logScaling = true → ∀ row ∈ X.rows, ∀ c ∈ row, (s.epsilon : ℝ) ≠ 0 ∧ 0 < 1 + c.2 / (s.epsilon : ℝ)

/-- the matrix with the confidences instead of the stored values -/
noncomputable def IalsSettings.confidences (s : IalsSettings) (X : CSR ℝ) : CSR ℝ :=
  ⟨X.cols, X.rows.map (fun row => row.map (fun e => (e.1, s.confidence e.2)))⟩

/-- The documented loss has the named `alpha0`, `nu` and loss type, and regularisation `reg`. -/
noncomputable def IalsSettings.params (s : IalsSettings) (reg : ℝ) : Params := ⟨s.original, s.alpha0, reg, s.nu⟩

/-- The native configuration for these settings, with regularisation `reg`. -/
noncomputable def IalsSettings.config (s : IalsSettings) (reg : ℝ) : Ials.Config where
  K := s.nComponents
  alpha0 := s.alpha0
  reg := reg
  nu := s.nu
  initStdev := s.initStd
  randomSeed := s.seed
  lossType := if s.original then .original else .ialspp
  lambdaUser := s.lambdaUser
  lambdaItem := s.lambdaItem
  warmup := s.warmup

/-- all native configurations: one pass of iALS++ per epoch in training -/
noncomputable def IalsSettings.configs (s : IalsSettings) (reg : ℝ) : Builders.Configs where
  model := s.config reg
  train := (s.threads, ⟨s.solver, s.maxCgSteps, s.subspaceDimension, 1⟩)
  prediction := (s.threads, ⟨s.solver, s.predictionMaxCgSteps, s.subspaceDimension, s.predictionIteration⟩)

/-- the weight of all regularisation terms together -/
noncomputable def regWeight (p : Params) (D : Data) : ℝ :=
  ∑ u ∈ Finset.range D.U, userWeight p D u + ∑ i ∈ Finset.range D.I, itemWeight p D i

/-- `reg` is the regularisation to use on the data `X`: the named one; or, if `nu_star` is named, the one with
which all regularisation terms together weigh as much as with the named one and `nu = nu_star`. -/
def IalsSettings.RegIs (s : IalsSettings) (X : CSR ℝ) (reg : ℝ) : Prop :=
  (s.nuStar = none → reg = s.reg) ∧
  ∀ ν, s.nuStar = some ν →
    regWeight (s.params reg) (Data.ofCSR X) = regWeight { s.params s.reg with nu := (ν : ℝ) } (Data.ofCSR X)

/-- a matrix of features without columns -/
def noFeatures (n : Nat) : Features := ⟨n, 0, fun _ _ => 0⟩

end Irspack.RecClasses
