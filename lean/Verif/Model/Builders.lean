import Verif.Model.IalsRecommender

/-!
# The configuration builders of iALS

`IALSModelConfigBuilder` and `IALSSolverConfigBuilder` as Python objects: setters that change a builder in
place, hand a builder back, and convert their argument from Python; and the three chains of calls by which
`IALSTrainer.__init__` passes a recommender's hyperparameters to the native code.

Sources: cpp_source/als/IALSLearningConfig.hpp, cpp_source/als/wrapper.cpp,
src/irspack/recommenders/ials.py.
-/

namespace Irspack.Ials.Builders

open Irspack.Ials

/-- a Python value handed to a setter -/
inductive PyVal where
  | int (n : Int)
  | float (x : ℝ)
  | loss (l : LossType)
  | solver (s : SolverType)
  | other

/-- nanobind's conversion to `size_t`: integers in range only, no floats (wrapper.cpp:75, 87-89,
120-129) -/
def toSize : PyVal → Except Err Nat
  | .int n => if 0 ≤ n ∧ n < 2 ^ 64 then .ok n.toNat else .error .typeError
  | _ => .error .typeError

/-- nanobind's conversion to `int` (wrapper.cpp:80) -/
def toInt : PyVal → Except Err Int
  | .int n => if -(2 ^ 31) ≤ n ∧ n < 2 ^ 31 then .ok n else .error .typeError
  | _ => .error .typeError

/-- nanobind's conversion to `Real` (wrapper.cpp:76-79, 82-86): a Python float or an integer, rounded to
single precision by `cast`.  NaN and infinities are outside the model. -/
def toReal (cast : ℝ → ℝ) : PyVal → Except Err ℝ
  | .float x => .ok (cast x)
  | .int n => .ok (cast n)
  | _ => .error .typeError

/-- nanobind's conversion to `LossType` (wrapper.cpp:25-27, 81); members of other enumerations and plain
integers are refused -/
def toLoss : PyVal → Except Err LossType
  | .loss l => .ok l
  | _ => .error .typeError

/-- nanobind's conversion to `SolverType` (wrapper.cpp:29-32, 121) -/
def toSolver : PyVal → Except Err SolverType
  | .solver s => .ok s
  | _ => .error .typeError

/-- the setters of `IALSModelConfigBuilder` (wrapper.cpp:75-89) -/
inductive Field where
  | K | alpha0 | reg | nu | initStdev | randomSeed | lossType | lambdaUser | lambdaItem | warmup
  deriving DecidableEq

/-- `IALSModelConfig::Builder` (IALSLearningConfig.hpp:33-43) -/
structure Builder where
  reg : ℝ
  alpha0 : ℝ
  nu : ℝ
  initStdev : ℝ
  K : Nat
  randomSeed : Int
  lossType : LossType
  lambdaUser : ℝ
  lambdaItem : ℝ
  warmup : Nat

/-- `Builder()` with its member initialisers (IALSLearningConfig.hpp:34-44) -/
noncomputable def Builder.new (cast : ℝ → ℝ) : Builder where
  reg := cast (1 / 10)
  alpha0 := cast (1 / 10)
  nu := cast 1
  initStdev := cast (1 / 10)
  K := 16
  randomSeed := 42
  lossType := .ialspp
  lambdaUser := cast 0
  lambdaItem := cast 0
  warmup := 0

/-- the constructor of `IALSModelConfig`, with its order of arguments
(IALSLearningConfig.hpp:16-25) -/
def mkConfig (K : Nat) (alpha0 reg nu initStdev : ℝ) (randomSeed : Int) (lossType : LossType)
    (lambdaUser lambdaItem : ℝ) (warmup : Nat) : Config where
  K := K
  alpha0 := alpha0
  reg := reg
  nu := nu
  initStdev := initStdev
  lambdaUser := lambdaUser
  lambdaItem := lambdaItem
  warmup := warmup
  randomSeed := randomSeed
  lossType := lossType

/-- `Builder::build` (IALSLearningConfig.hpp:45-49) -/
def Builder.build (b : Builder) : Config :=
  mkConfig b.K b.alpha0 b.reg b.nu b.initStdev b.randomSeed b.lossType b.lambdaUser b.lambdaItem b.warmup

/-- the body of a setter with its argument conversion (IALSLearningConfig.hpp:51-93,
wrapper.cpp:75-89) -/
def Builder.set (cast : ℝ → ℝ) (b : Builder) (f : Field) (v : PyVal) : Except Err Builder :=
  match f with
  | .alpha0 => (toReal cast v).map fun x => { b with alpha0 := x }
  | .initStdev => (toReal cast v).map fun x => { b with initStdev := x }
  | .reg => (toReal cast v).map fun x => { b with reg := x }
  | .nu => (toReal cast v).map fun x => { b with nu := x }
  | .K => (toSize v).map fun n => { b with K := n }
  | .randomSeed => (toInt v).map fun n => { b with randomSeed := n }
  | .lossType => (toLoss v).map fun l => { b with lossType := l }
  | .lambdaUser => (toReal cast v).map fun x => { b with lambdaUser := x }
  | .lambdaItem => (toReal cast v).map fun x => { b with lambdaItem := x }
  | .warmup => (toSize v).map fun n => { b with warmup := n }

/-- the setters of `IALSSolverConfigBuilder` (wrapper.cpp:120-129) -/
inductive SField where
  | nThreads | solverType | maxCgSteps | subspaceDimension | iteration
  deriving DecidableEq

/-- `SolverConfig::Builder` (IALSLearningConfig.hpp:116-123) -/
structure SBuilder where
  nThreads : Nat
  solverType : SolverType
  maxCgSteps : Nat
  subspaceDimension : Nat
  iteration : Nat

/-- its member initialisers (IALSLearningConfig.hpp:117-122) -/
def SBuilder.new : SBuilder := ⟨1, .cg, 3, 64, 1⟩

/-- the constructor of `SolverConfig` (IALSLearningConfig.hpp:99-106); the thread count is kept apart, as in
`Ials.SolverConfig.setstate` -/
def mkSolver (nThreads : Nat) (solverType : SolverType) (maxCgSteps subspaceDimension iteration : Nat) :
    Nat × SolverConfig :=
  (nThreads, ⟨solverType, maxCgSteps, subspaceDimension, iteration⟩)

/-- `SolverConfig::Builder::build` (IALSLearningConfig.hpp:124-127) -/
def SBuilder.build (b : SBuilder) : Nat × SolverConfig :=
  mkSolver b.nThreads b.solverType b.maxCgSteps b.subspaceDimension b.iteration

/-- the setters with their conversions (IALSLearningConfig.hpp:129-148, wrapper.cpp:120-129) -/
def SBuilder.set (b : SBuilder) (f : SField) (v : PyVal) : Except Err SBuilder :=
  match f with
  | .nThreads => (toSize v).map fun n => { b with nThreads := n }
  | .solverType => (toSolver v).map fun s => { b with solverType := s }
  | .maxCgSteps => (toSize v).map fun n => { b with maxCgSteps := n }
  | .subspaceDimension => (toSize v).map fun n => { b with subspaceDimension := n }
  | .iteration => (toSize v).map fun n => { b with iteration := n }

/-! ## Builders as objects

A setter changes the object it is called on and returns a reference to it.  What Python receives for that
reference is up to the binding: the same object, or a new one with a copy of the contents (nanobind's default
for references).  Both are modelled. -/

/-- what the binding returns for a `Builder &` -/
inductive Returned where
  | same
  | copy
  deriving DecidableEq

/-- One method call `ref.set_f(v)` on a store of builders: the argument is converted first, so that a refused
argument changes nothing; then the object is changed in place and handed back (wrapper.cpp:75-89). -/
def callOn {B F : Type} (set : B → F → PyVal → Except Err B) (p : Returned) (objs : List B) (ref : Nat)
    (f : F) (v : PyVal) : Except Err (List B × Nat) :=
  match objs[ref]? with
  | none => .error .attributeError
  | some b =>
    match set b f v with
    | .error e => .error e
    | .ok b' =>
      match p with
      | .same => .ok (objs.set ref b', ref)
      | .copy => .ok (objs.set ref b' ++ [b'], objs.length)

/-- a chain `ref.set_f₁(v₁).set_f₂(v₂)…` -/
def chain {B F : Type} (set : B → F → PyVal → Except Err B) (p : Returned) :
    List B → Nat → List (F × PyVal) → Except Err (List B × Nat)
  | objs, ref, [] => .ok (objs, ref)
  | objs, ref, c :: cs =>
    match callOn set p objs ref c.1 c.2 with
    | .error e => .error e
    | .ok r => chain set p r.1 r.2 cs

/-- `.build()` at the end of a chain -/
def buildAt {B C : Type} (build : B → C) (objs : List B) (ref : Nat) : Except Err C :=
  match objs[ref]? with
  | none => .error .attributeError
  | some b => .ok (build b)

/-- `IALSModelConfigBuilder().set_…(…)….build()` -/
noncomputable def modelChain (cast : ℝ → ℝ) (p : Returned) (objs : List Builder)
    (calls : List (Field × PyVal)) : Except Err Config :=
  match chain (Builder.set cast) p (objs ++ [Builder.new cast]) objs.length calls with
  | .error e => .error e
  | .ok r => buildAt Builder.build r.1 r.2

/-- `IALSSolverConfigBuilder().set_…(…)….build()` -/
def solverChain (p : Returned) (objs : List SBuilder) (calls : List (SField × PyVal)) :
    Except Err (Nat × SolverConfig) :=
  match chain SBuilder.set p (objs ++ [SBuilder.new]) objs.length calls with
  | .error e => .error e
  | .ok r => buildAt SBuilder.build r.1 r.2

/-! ## The chains of `IALSTrainer.__init__` -/

/-- the hyperparameters of `IALSTrainer` as Python values (ials.py:70-91) -/
structure TrainerArgs where
  nComponents : PyVal
  alpha0 : PyVal
  reg : PyVal
  nu : PyVal
  initStd : PyVal
  solverType : PyVal
  maxCgSteps : PyVal
  subspaceDimension : PyVal
  lossType : PyVal
  randomSeed : PyVal
  nThreads : PyVal
  predictionMaxCgSteps : PyVal
  predictionIteration : PyVal
  lambdaUser : PyVal
  lambdaItem : PyVal
  warmup : PyVal

/-- the model configuration (ials.py:93-106) -/
def modelCalls (a : TrainerArgs) : List (Field × PyVal) :=
  [(.K, a.nComponents), (.initStdev, a.initStd), (.alpha0, a.alpha0), (.reg, a.reg), (.nu, a.nu),
   (.lossType, a.lossType), (.randomSeed, a.randomSeed), (.lambdaUser, a.lambdaUser),
   (.lambdaItem, a.lambdaItem), (.warmup, a.warmup)]

/-- the solver configuration for training (ials.py:107-115) -/
def trainCalls (a : TrainerArgs) : List (SField × PyVal) :=
  [(.nThreads, a.nThreads), (.solverType, a.solverType), (.maxCgSteps, a.maxCgSteps),
   (.iteration, .int 1), (.subspaceDimension, a.subspaceDimension)]

/-- the solver configuration for predictions (ials.py:130-138) -/
def predictionCalls (a : TrainerArgs) : List (SField × PyVal) :=
  [(.nThreads, a.nThreads), (.solverType, a.solverType), (.maxCgSteps, a.predictionMaxCgSteps),
   (.subspaceDimension, a.subspaceDimension), (.iteration, a.predictionIteration)]

/-- the configurations an `IALSTrainer` works with -/
structure Configs where
  model : Config
  train : Nat × SolverConfig
  prediction : Nat × SolverConfig

/-- the three chains of `IALSTrainer.__init__` in their order (ials.py:93-138); the native trainer is
constructed between the second and the third, see `Recommender.createTrainer` -/
noncomputable def trainerConfigs (cast : ℝ → ℝ) (p : Returned) (a : TrainerArgs) : Except Err Configs := do
  let m ← modelChain cast p [] (modelCalls a)
  let s ← solverChain p [] (trainCalls a)
  let q ← solverChain p [] (predictionCalls a)
  return ⟨m, s, q⟩

/-- the keyword arguments passed by `IALSRecommender._create_trainer` (ials.py:448-469) -/
def argsOf (r : Recommender) (nThreads : Nat) : TrainerArgs where
  nComponents := .int r.args.nComponents
  alpha0 := .float r.args.alpha0
  reg := .float r.scaledReg
  nu := .float r.args.nu
  initStd := .float r.args.initStd
  solverType := .solver r.solverType
  maxCgSteps := .int r.args.maxCgSteps
  subspaceDimension := .int r.args.subspaceDimension
  lossType := .loss r.args.lossType
  randomSeed := .int r.args.randomSeed
  nThreads := .int nThreads
  predictionMaxCgSteps := .int r.args.predictionMaxCgSteps
  predictionIteration := .int r.args.predictionIteration
  lambdaUser := .float r.args.lambdaUser
  lambdaItem := .float r.args.lambdaItem
  warmup := .int r.args.warmup

/-- `str_to_loss_type` (ials.py:52-55); an unknown name is an attribute error -/
def strToLossType (t : String) : Except Err LossType :=
  if t.toUpper = "ORIGINAL" then .ok .original
  else if t.toUpper = "IALSPP" then .ok .ialspp
  else .error .attributeError

end Irspack.Ials.Builders
