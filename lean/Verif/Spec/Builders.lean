import Verif.Model.Builders

/-!
# What a chain of setter calls should give

The value a setting ends up with is that of the last call naming it, and the default if there is none.
-/

namespace Irspack.Spec.Builders

open Irspack Irspack.Ials Irspack.Ials.Builders

/-- the last value given to `f` -/
def lastValue {F : Type} [DecidableEq F] (f : F) (calls : List (F × PyVal)) : Option PyVal :=
  ((calls.filter (fun c => decide (c.1 = f))).getLast?).map (·.2)

/-- the kinds of settings -/
inductive Kind where
  | size | int | real | loss | solver

/-- the kind of each model setting -/
def kind : Field → Kind
  | .K => .size
  | .warmup => .size
  | .randomSeed => .int
  | .lossType => .loss
  | .alpha0 => .real
  | .reg => .real
  | .nu => .real
  | .initStdev => .real
  | .lambdaUser => .real
  | .lambdaItem => .real

/-- the kind of each solver setting -/
def skind : SField → Kind
  | .solverType => .solver
  | .nThreads => .size
  | .maxCgSteps => .size
  | .subspaceDimension => .size
  | .iteration => .size

/-- the Python values a setting of a kind accepts -/
def Fits : Kind → PyVal → Prop
  | .size, v => ∃ n : Int, v = .int n ∧ 0 ≤ n ∧ n < 2 ^ 64
  | .int, v => ∃ n : Int, v = .int n ∧ -(2 ^ 31) ≤ n ∧ n < 2 ^ 31
  | .real, v => (∃ n : Int, v = .int n) ∨ ∃ x : ℝ, v = .float x
  | .loss, v => ∃ l, v = .loss l
  | .solver, v => ∃ s, v = .solver s

/-- what is kept of an accepted value: numbers for real settings are rounded, all else is kept as it is -/
def kept (cast : ℝ → ℝ) : Kind → PyVal → PyVal
  | .real, .int n => .float (cast n)
  | .real, .float x => .float (cast x)
  | _, v => v

/-- a setting of a configuration, as a Python value -/
def setting (c : Config) : Field → PyVal
  | .K => .int c.K
  | .alpha0 => .float c.alpha0
  | .reg => .float c.reg
  | .nu => .float c.nu
  | .initStdev => .float c.initStdev
  | .randomSeed => .int c.randomSeed
  | .lossType => .loss c.lossType
  | .lambdaUser => .float c.lambdaUser
  | .lambdaItem => .float c.lambdaItem
  | .warmup => .int c.warmup

/-- a setting of a solver configuration, as a Python value -/
def ssetting (c : Nat × SolverConfig) : SField → PyVal
  | .nThreads => .int c.1
  | .solverType => .solver c.2.solverType
  | .maxCgSteps => .int c.2.maxCgSteps
  | .subspaceDimension => .int c.2.subspaceDimension
  | .iteration => .int c.2.iteration

/-- the native defaults of the model settings -/
noncomputable def default : Field → PyVal
  | .K => .int 16
  | .alpha0 => .float (1 / 10)
  | .reg => .float (1 / 10)
  | .nu => .float 1
  | .initStdev => .float (1 / 10)
  | .randomSeed => .int 42
  | .lossType => .loss .ialspp
  | .lambdaUser => .float 0
  | .lambdaItem => .float 0
  | .warmup => .int 0

/-- the native defaults of the solver settings -/
def sdefault : SField → PyVal
  | .nThreads => .int 1
  | .solverType => .solver .cg
  | .maxCgSteps => .int 3
  | .subspaceDimension => .int 64
  | .iteration => .int 1

end Irspack.Spec.Builders
