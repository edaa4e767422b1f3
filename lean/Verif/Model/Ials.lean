import Mathlib.LinearAlgebra.Matrix.NonsingularInverse
import Mathlib.Analysis.SpecialFunctions.Pow.Real
import Mathlib.Analysis.SpecialFunctions.Sqrt
import Verif.Model.Region
import Verif.Model.Similarity

/-!
# iALS (`/repo/cpp_source/als/IALSTrainer.hpp`, `IALSLearningConfig.hpp`)

Simplifications: real arithmetic instead of `float`.  Where `float` arithmetic would produce a NaN or
an infinity by dividing by zero the model stops with `Err.nonFinite`.  `std::pow(0, nu)` with
`nu < 0` is infinite in C++ and `0` here; `std::sqrt` of a negative number is NaN in C++ and `0` here:
the theorems assume non-negative interactions and `reg`, and a positive base or `0 ≤ nu`.
-/

namespace Irspack.Ials

/-- `enum class LossType` (IALSLearningConfig.hpp:11) -/
inductive LossType where
  | original
  | ialspp
  deriving DecidableEq

/-- `enum class SolverType` (IALSLearningConfig.hpp:12) -/
inductive SolverType where
  | cholesky
  | cg
  | ialspp
  deriving DecidableEq

/-- `IALSModelConfig` (IALSLearningConfig.hpp:15-32) -/
structure Config where
  K : Nat
  alpha0 : ℝ
  reg : ℝ
  nu : ℝ
  initStdev : ℝ
  randomSeed : Int
  lossType : LossType
  lambdaUser : ℝ
  lambdaItem : ℝ
  warmup : Nat

/-- `SolverConfig` (IALSLearningConfig.hpp:97-115) without `n_threads`, which is the number of workers
of the regions. -/
structure SolverConfig where
  solverType : SolverType
  maxCgSteps : Nat
  subspaceDimension : Nat
  iteration : Nat

/-- an embedding -/
abbrev Vec (K : Nat) := Fin K → ℝ

/-- A `DenseMatrix` with `n` rows and `K` columns (`user`, `item`); rows beyond `n` are junk. -/
structure Factor (K : Nat) where
  n : Nat
  row : Nat → Vec K

variable {K : Nat}

section gram
variable {ι : Type} [Fintype ι] [LinearOrder ι]

/-- The rank-update buffer together with the matrix it is flushed into
(`BatchedRankUpdater` and its `target`, IALSTrainer.hpp:37-58). -/
structure Batch (ι : Type) where
  buf : List (ι → ℝ)
  target : Matrix ι ι ℝ

/-- `target.rankUpdate(rows.adjoint(), 1)` on an upper self-adjoint view: only the upper triangle is
written (IALSTrainer.hpp:48-49, 297). -/
def rankUpdate (target : Matrix ι ι ℝ) (rows : List (ι → ℝ)) : Matrix ι ι ℝ :=
  fun i j => if i ≤ j then target i j + (rows.map (fun v => v i * v j)).sum else target i j

/-- `consume` (IALSTrainer.hpp:46-53) -/
def Batch.consume (b : Batch ι) : Batch ι :=
  if 0 < b.buf.length then ⟨[], rankUpdate b.target b.buf⟩ else b

/-- `add_row` for buffer size `nMax` (IALSTrainer.hpp:40-45) -/
noncomputable def Batch.addRow (nMax : Nat) (b : Batch ι) (v : ι → ℝ) (c : ℝ) : Batch ι :=
  let b' : Batch ι := ⟨b.buf ++ [fun i => Real.sqrt c * v i], b.target⟩
  if nMax ≤ b'.buf.length then b'.consume else b'

/-- `BatchedRankUpdater<>`'s default buffer size (IALSTrainer.hpp:37) -/
def batchMax : Nat := 64

/-- the diagonal shift `P_local(i, i) += reg` (IALSTrainer.hpp:312-314, 370, 491-493) -/
def addDiagonal (A : Matrix ι ι ℝ) (d : ℝ) : Matrix ι ι ℝ :=
  fun i j => if i = j then A i j + d else A i j

/-- The matrix that `LLT<_, Upper>` factorises: it reads the upper triangle only
(IALSTrainer.hpp:316). -/
def upperSymm (A : Matrix ι ι ℝ) : Matrix ι ι ℝ := fun i j => if i ≤ j then A i j else A j i

/-- positive definiteness as a quadratic form -/
def PosDef (A : Matrix ι ι ℝ) : Prop := ∀ x : ι → ℝ, x ≠ 0 → 0 < x ⬝ᵥ A.mulVec x

open Classical in
/-- `LLT<_, Upper> llt(A); llt.solve(b)` by contract: the factorisation succeeds exactly for positive
definite matrices, and the solution is then `A⁻¹ b`; `none` is `info() != Success`
(IALSTrainer.hpp:316-323, 495-497). -/
noncomputable def llt (A : Matrix ι ι ℝ) (b : ι → ℝ) : Option (ι → ℝ) :=
  if PosDef (upperSymm A) then some ((upperSymm A)⁻¹.mulVec b) else none

end gram

/-- `observation_bias` (IALSTrainer.hpp:190-191, 289-290, 453-454, 577-578, 852-854) -/
def bias (cfg : Config) : ℝ :=
  match cfg.lossType with
  | .ialspp => 0
  | .original => cfg.alpha0

/-- `compute_reg` (IALSTrainer.hpp:117-120).  Simplification: `0 ^ nu` is 0 for a negative `nu`, where
`std::pow` gives infinity; it is 1 for `nu = 0` in both. -/
noncomputable def computeReg (cfg : Config) (nnz otherSize : Nat) : ℝ :=
  cfg.reg * (cfg.alpha0 * otherSize + nnz) ^ cfg.nu

/-- `prepare_p` (IALSTrainer.hpp:78-115): `alpha0 · Vᵀ V`, accumulated by the workers in blocks of 16
rows. -/
def prepareP {T : Nat} (ω : Oracle T) (cfg : Config) (V : Factor K) :
    Except Err (Matrix (Fin K) (Fin K) ℝ) :=
  if T = 0 then .error .invalidArgument
  else .ok (cfg.alpha0 • parSum ω V.n 16 (fun r => (fun i j => V.row r i * V.row r j :
    Matrix (Fin K) (Fin K) ℝ)))

/-! ## Row solvers -/

/-- One row of `step_cholesky` (IALSTrainer.hpp:296-324). -/
noncomputable def choleskyRow (cfg : Config) (P : Matrix (Fin K) (Fin K) ℝ) (V : Factor K)
    (row : SpVec ℝ) : Except Err (Vec K) :=
  let acc := row.foldl
    (fun (s : Batch (Fin K) × Vec K × Nat) e =>
      (s.1.addRow batchMax (V.row e.1) e.2, s.2.1 + (bias cfg + e.2) • V.row e.1, s.2.2 + 1))
    (⟨[], P⟩, 0, 0)
  let A := addDiagonal acc.1.consume.target (computeReg cfg acc.2.2 V.n)
  match llt A acc.2.1 with
  | none => .error .runtimeError
  | some x => .ok x

/-- One row of `step_cholesky_with_prior` (IALSTrainer.hpp:358-379). -/
noncomputable def choleskyPriorRow (cfg : Config) (P : Matrix (Fin K) (Fin K) ℝ) (V : Factor K)
    (q : Vec K) (row : SpVec ℝ) : Except Err (Vec K) :=
  let diagonal := computeReg cfg row.length V.n
  let acc := row.foldl
    (fun (s : Batch (Fin K) × Vec K) e =>
      (s.1.addRow batchMax (V.row e.1) e.2, s.2 + (bias cfg + e.2) • V.row e.1))
    (⟨[], P⟩, diagonal • q)
  let A := addDiagonal acc.1.consume.target diagonal
  match llt A acc.2 with
  | none => .error .runtimeError
  | some x => .ok x

/-- `P * p + reg * p + Σ value (v · p) v` (IALSTrainer.hpp:241-247) -/
def applyA (P : Matrix (Fin K) (Fin K) ℝ) (V : Factor K) (reg : ℝ) (row : SpVec ℝ) (p : Vec K) :
    Vec K :=
  row.foldl (fun a e => a + (e.2 * (V.row e.1 ⬝ᵥ p)) • V.row e.1) (P.mulVec p + reg • p)

/-- The conjugate-gradient loop with `n` steps left; `eps` is the stopping threshold `1e-20`
(IALSTrainer.hpp:236-263).  Non-finite denominators cannot occur in real arithmetic. -/
noncomputable def cgLoop (A : Vec K → Vec K) (eps : ℝ) : Nat → Vec K → Vec K → Vec K →
    Except Err (Vec K)
  | 0, x, _, _ => .ok x
  | n + 1, x, r, p =>
    let r2 := r ⬝ᵥ r
    if r2 ≤ eps then .ok x
    else
      let Ap := A p
      let denominator := p ⬝ᵥ Ap
      if ¬ 0 < denominator then .error .runtimeError
      else
        let alpha := r2 / denominator
        let x' := x + alpha • p
        let r' := r - alpha • Ap
        if r' ⬝ᵥ r' ≤ eps then .ok x'
        else cgLoop A eps n x' r' (r' + (r' ⬝ᵥ r' / r2) • p)

/-- `1e-20` (IALSTrainer.hpp:238, 258) -/
noncomputable def cgEps : ℝ := 1 / 10 ^ 20

/-- `cg_max_iter` (IALSTrainer.hpp:232-234) -/
def cgMaxIter (K : Nat) (sc : SolverConfig) : Nat := if sc.maxCgSteps = 0 then K else sc.maxCgSteps

/-- One row of `step_cg`, with or without a feature prior (IALSTrainer.hpp:199-264); `x` is the
previous value of the row. -/
noncomputable def cgRow (cfg : Config) (sc : SolverConfig) (P : Matrix (Fin K) (Fin K) ℝ)
    (V : Factor K) (prior : Option (Vec K)) (row : SpVec ℝ) (x : Vec K) : Except Err (Vec K) :=
  let reg := computeReg cfg row.length V.n
  if prior.isNone = true ∧ row.length = 0 then .ok 0
  else
    let b₀ : Vec K := match prior with
      | some q => reg • q
      | none => 0
    let b := row.foldl (fun b e => b + (bias cfg + e.2) • V.row e.1) b₀
    let r := row.foldl (fun r e => r - (e.2 * (V.row e.1 ⬝ᵥ x)) • V.row e.1)
      (b - P.mulVec x - reg • x)
    cgLoop (applyA P V reg row) cgEps (cgMaxIter K sc) x r r

/-! ## Half-steps by Cholesky and conjugate gradient -/

/-- store the rows computed by a region -/
def Factor.setRows (F : Factor K) (m : Nat → Vec K) : Factor K := ⟨F.n, m⟩

/-- `step_cholesky` (IALSTrainer.hpp:273-331) -/
noncomputable def stepCholesky {T : Nat} (ω : Oracle T) (cfg : Config)
    (P : Matrix (Fin K) (Fin K) ℝ) (X : CSR ℝ) (V target : Factor K) : Except Err (Factor K) :=
  (parRows ω target.n 1 (fun r _ => choleskyRow cfg P V (X.row r)) target.row).map target.setRows

/-- `step_cholesky_with_prior` (IALSTrainer.hpp:333-385); the column counts agree by type. -/
noncomputable def stepCholeskyPrior {T : Nat} (ω : Oracle T) (cfg : Config)
    (P : Matrix (Fin K) (Fin K) ℝ) (X : CSR ℝ) (V prior target : Factor K) : Except Err (Factor K) :=
  if prior.n ≠ target.n then .error .invalidArgument
  else (parRows ω target.n 1 (fun r _ => choleskyPriorRow cfg P V (prior.row r) (X.row r))
    target.row).map target.setRows

/-- `step_cg` (IALSTrainer.hpp:170-271) -/
noncomputable def stepCg {T : Nat} (ω : Oracle T) (cfg : Config) (sc : SolverConfig)
    (P : Matrix (Fin K) (Fin K) ℝ) (X : CSR ℝ) (V : Factor K) (prior : Option (Factor K))
    (target : Factor K) : Except Err (Factor K) :=
  if prior.any (fun q => decide (q.n ≠ target.n)) = true then .error .invalidArgument
  else (parRows ω target.n 1
    (fun r x => cgRow cfg sc P V (prior.map (fun q => q.row r)) (X.row r) x)
    target.row).map target.setRows

/-! ## Half-steps by iALS++ (block coordinate descent) -/

/-- `_prediction` (IALSTrainer.hpp:387-421): for every stored entry of every row the current score. -/
def prediction {T : Nat} (ω : Oracle T) (X : CSR ℝ) (target V : Factor K) :
    Except Err (Nat → List ℝ) :=
  parRows ω target.n 1 (fun r _ => .ok ((X.row r).map (fun e => target.row r ⬝ᵥ V.row e.1)))
    (fun _ => [])

/-- the latent dimensions `lo ≤ k < hi` (`middleCols(dim_start, subspace_dim)`) -/
abbrev Dims (K lo hi : Nat) := {k : Fin K // lo ≤ k.val ∧ k.val < hi}

/-- One row of `_step_dimrange` (IALSTrainer.hpp:462-506).  `x` is the row of `target_factor`, which
is not written inside the region; the state is the row of `target_factor_subspaced` and the
predictions of the row. -/
noncomputable def dimrangeRow (cfg : Config) (P : Matrix (Fin K) (Fin K) ℝ) (V : Factor K)
    (lo hi : Nat) (row : SpVec ℝ) (x : Vec K) (s : (Dims K lo hi → ℝ) × List ℝ) :
    Except Err ((Dims K lo hi → ℝ) × List ℝ) :=
  let reg := computeReg cfg row.length V.n
  let acc := (row.zip s.2).foldl
    (fun (a : Batch (Dims K lo hi) × (Dims K lo hi → ℝ)) e =>
      (a.1.addRow batchMax (fun i => V.row e.1.1 i.1) e.1.2,
        a.2 + (e.1.2 * (e.2 - 1) - bias cfg) • (fun i => V.row e.1.1 i.1)))
    (⟨[], fun i j => P i.1 j.1⟩, fun i => P.mulVec x i.1 + reg * s.1 i)
  let A := addDiagonal acc.1.consume.target reg
  match llt A acc.2 with
  | none => .error .nonFinite
  | some δ => .ok (s.1 - δ,
      List.zipWith (fun e p => p - ∑ i, δ i * V.row e.1 i.1) row s.2)

/-- `_step_dimrange` (IALSTrainer.hpp:423-514) -/
noncomputable def stepDimrange {T : Nat} (ω : Oracle T) (cfg : Config)
    (P : Matrix (Fin K) (Fin K) ℝ) (X : CSR ℝ) (V : Factor K) (lo hi : Nat)
    (s : Factor K × (Nat → List ℝ)) : Except Err (Factor K × (Nat → List ℝ)) :=
  (parRows ω s.1.n 1 (fun r y => dimrangeRow cfg P V lo hi (X.row r) (s.1.row r) y)
    (fun r => (fun i => s.1.row r i.1, s.2 r))).map
    (fun m => (s.1.setRows (fun r k => if h : lo ≤ k.val ∧ k.val < hi then (m r).1 ⟨k, h⟩
      else s.1.row r k), fun r => (m r).2))

/-- One row of `_step_icd` (IALSTrainer.hpp:586-622). -/
noncomputable def icdRow (cfg : Config) (P : Matrix (Fin K) (Fin K) ℝ) (V : Factor K) (d : Fin K)
    (row : SpVec ℝ) (x : Vec K) (s : ℝ × List ℝ) : Except Err (ℝ × List ℝ) :=
  let reg := computeReg cfg row.length V.n
  let acc := (row.zip s.2).foldl
    (fun (a : ℝ × ℝ) e =>
      (a.1 + e.1.2 * V.row e.1.1 d * V.row e.1.1 d,
        a.2 + (e.1.2 * (e.2 - 1) - bias cfg) * V.row e.1.1 d))
    (P d d, P d ⬝ᵥ x + reg * s.1)
  let pLocal := acc.1 + reg
  if pLocal = 0 then .error .nonFinite
  else
    let δ := acc.2 / pLocal
    .ok (s.1 - δ, List.zipWith (fun e p => p - δ * V.row e.1 d) row s.2)

/-- `_step_icd` (IALSTrainer.hpp:554-630) -/
noncomputable def stepIcdDim {T : Nat} (ω : Oracle T) (cfg : Config)
    (P : Matrix (Fin K) (Fin K) ℝ) (X : CSR ℝ) (V : Factor K) (d : Fin K)
    (s : Factor K × (Nat → List ℝ)) : Except Err (Factor K × (Nat → List ℝ)) :=
  (parRows ω s.1.n 1 (fun r y => icdRow cfg P V d (X.row r) (s.1.row r) y)
    (fun r => (s.1.row r d, s.2 r))).map
    (fun m => (s.1.setRows (fun r => Function.update (s.1.row r) d (m r).1), fun r => (m r).2))

/-- `for (cursor = 0; cursor < K; cursor += sub)`: the blocks `[cursor, min(cursor + sub, K))`
(IALSTrainer.hpp:527-530) -/
def dimBlocks (K sub : Nat) : List (Nat × Nat) :=
  (List.range ((K + sub - 1) / sub)).map (fun b => (b * sub, min (b * sub + sub) K))

/-- one outer iteration of `step_ialspp` (IALSTrainer.hpp:523-533) -/
noncomputable def ialsppIteration {T : Nat} (ω : Oracle T) (cfg : Config) (sub : Nat)
    (P : Matrix (Fin K) (Fin K) ℝ) (X : CSR ℝ) (V target : Factor K) : Except Err (Factor K) := do
  let preds ← prediction (ω.at 0) X target V
  let s ← (dimBlocks K sub).foldlM
    (fun s b => stepDimrange ((ω.at 1).at b.1) cfg P X V b.1 b.2 s) (target, preds)
  return s.1

/-- one outer iteration of `step_icd` (IALSTrainer.hpp:544-551) -/
noncomputable def icdIteration {T : Nat} (ω : Oracle T) (cfg : Config)
    (P : Matrix (Fin K) (Fin K) ℝ) (X : CSR ℝ) (V target : Factor K) : Except Err (Factor K) := do
  let preds ← prediction (ω.at 0) X target V
  let s ← (List.finRange K).foldlM
    (fun s d => stepIcdDim ((ω.at 1).at d.val) cfg P X V d s) (target, preds)
  return s.1

/-- `step_ialspp` and `step_icd` (IALSTrainer.hpp:516-553), and the choice between them (673-677) -/
noncomputable def stepIalspp {T : Nat} (ω : Oracle T) (cfg : Config) (sc : SolverConfig)
    (P : Matrix (Fin K) (Fin K) ℝ) (X : CSR ℝ) (V target : Factor K) : Except Err (Factor K) :=
  (List.range sc.iteration).foldlM
    (fun F it =>
      if 1 < sc.subspaceDimension then ialsppIteration (ω.at it) cfg sc.subspaceDimension P X V F
      else icdIteration (ω.at it) cfg P X V F) target

/-! ## Half-steps -/

/-- `Solver::step` (IALSTrainer.hpp:664-679) -/
noncomputable def solverStep {T : Nat} (ω : Oracle T) (cfg : Config) (sc : SolverConfig)
    (P : Matrix (Fin K) (Fin K) ℝ) (X : CSR ℝ) (V target : Factor K) : Except Err (Factor K) :=
  match sc.solverType with
  | .cg => stepCg ω cfg sc P X V none target
  | .cholesky => stepCholesky ω cfg P X V target
  | .ialspp => stepIalspp ω cfg sc P X V target

open Classical in
/-- `Solver::step_with_prior` (IALSTrainer.hpp:633-663) -/
noncomputable def solverStepPrior {T : Nat} (ω : Oracle T) (cfg : Config) (sc : SolverConfig)
    (P : Matrix (Fin K) (Fin K) ℝ) (X : CSR ℝ) (V prior target : Factor K) :
    Except Err (Factor K) :=
  if cfg.alpha0 = 0 ∧ ¬ 0 < computeReg cfg 0 V.n ∧ (∃ row ∈ X.rows, row = []) then
    .error .invalidArgument
  else
    match sc.solverType with
    | .cg => stepCg ω cfg sc P X V (some prior) target
    | .cholesky => stepCholeskyPrior ω cfg P X V prior target
    | .ialspp => .error .invalidArgument

/-- `X_to_vector` (IALSTrainer.hpp:122-141) -/
noncomputable def xToVector {T : Nat} (ω : Oracle T) (cfg : Config) (sc : SolverConfig)
    (P : Matrix (Fin K) (Fin K) ℝ) (X : CSR ℝ) (V : Factor K) : Except Err (Factor K) :=
  if X.cols ≠ V.n then .error .invalidArgument
  else solverStep ω cfg sc P X V ⟨X.nrows, fun _ => 0⟩

/-- `X_to_vector_with_prior` (IALSTrainer.hpp:143-167); the column counts agree by type. -/
noncomputable def xToVectorPrior {T : Nat} (ω : Oracle T) (cfg : Config) (sc : SolverConfig)
    (P : Matrix (Fin K) (Fin K) ℝ) (X : CSR ℝ) (V prior : Factor K) : Except Err (Factor K) :=
  if X.cols ≠ V.n then .error .invalidArgument
  else if prior.n ≠ X.nrows then .error .invalidArgument
  else solverStepPrior ω cfg sc P X V prior prior

/-! ## Features -/

/-- A feature matrix, sparse or dense: the computations with it only depend on its values
(`FeatureMatrix`, IALSTrainer.hpp:27, 686-707). -/
structure Features where
  rows : Nat
  cols : Nat
  val : Nat → Nat → ℝ

/-- `user_feature_weight`: `rows × cols`; a default-constructed matrix has no rows and no columns. -/
structure Weight (K : Nat) where
  rows : Nat
  cols : Nat
  val : Nat → Vec K

/-- `feature_times_weight` (IALSTrainer.hpp:702-707) -/
def featureTimesWeight (F : Features) (W : Weight K) : Factor K :=
  ⟨F.rows, fun r k => ∑ f ∈ Finset.range F.cols, F.val r f * W.val f k⟩

/-- `FeatureWeightCache`: the row weights and the factorised matrix (IALSTrainer.hpp:31-35) -/
structure Cache (F : Nat) where
  rowWeights : Nat → ℝ
  gram : Matrix (Fin F) (Fin F) ℝ

/-- `initialize_feature_weight_cache` (IALSTrainer.hpp:1082-1130, both overloads) -/
noncomputable def initCache (cfg : Config) (feat : Features) (lam : ℝ) (X : CSR ℝ) (otherSize : Nat) :
    Cache feat.cols where
  rowWeights := fun r => computeReg cfg (X.row r).length otherSize
  gram := addDiagonal
    (fun i j => ∑ r ∈ Finset.range feat.rows,
      (feat.val r i.val * Real.sqrt (computeReg cfg (X.row r).length otherSize)) *
      (feat.val r j.val * Real.sqrt (computeReg cfg (X.row r).length otherSize))) lam

open Classical in
/-- `cache.llt.compute(gram)`: the lower triangle is read; failure is `none`
(IALSTrainer.hpp:1103-1105). -/
noncomputable def Cache.solve {F : Nat} (c : Cache F) (b : Fin F → ℝ) : Fin F → ℝ :=
  (upperSymm c.gram.transpose)⁻¹.mulVec b

/-- `solve_feature_weight` (IALSTrainer.hpp:1132-1177): the columns of the weight matrix are shared
out among the workers. -/
noncomputable def solveFeatureWeight {T : Nat} (ω : Oracle T) (feat : Features) (factor : Factor K)
    (W : Weight K) (c : Cache feat.cols) : Except Err (Weight K) :=
  if T = 0 then .error .invalidArgument
  else if K = 0 then .ok W
  else
    let workers := min T K
    let rhs : Fin K → Fin feat.cols → ℝ := fun k f =>
      ∑ r ∈ Finset.range feat.rows, feat.val r f.val * (factor.row r k * c.rowWeights r)
    (parRows ω K ((K + workers - 1) / workers)
      (fun k _ => .ok (if h : k < K then c.solve (rhs ⟨k, h⟩) else 0))
      (fun k f => if h : k < K then W.val f.val ⟨k, h⟩ else 0)).map
      (fun m => ⟨W.rows, W.cols, fun f k => if h : f < feat.cols then m k.val ⟨f, h⟩ else W.val f k⟩)

open Classical in
/-- the cache used by `update_feature_weight`: the one kept from an earlier epoch, or a new one, whose
factorisation may fail (IALSTrainer.hpp:1103-1105, 1189-1191, 1205-1207) -/
noncomputable def featureCache (cfg : Config) (feat : Features) (lam : ℝ) (X : CSR ℝ)
    (otherSize : Nat) : Option (Cache feat.cols) → Except Err (Cache feat.cols)
  | some c => .ok c
  | none =>
    if PosDef (upperSymm (initCache cfg feat lam X otherSize).gram.transpose) then
      .ok (initCache cfg feat lam X otherSize)
    else .error .runtimeError

/-- `update_feature_weight` (IALSTrainer.hpp:1179-1209, both overloads): returns the weight and the
cache. -/
noncomputable def updateFeatureWeight {T : Nat} (ω : Oracle T) (cfg : Config) (feat : Features)
    (factor : Factor K) (W : Weight K) (lam : ℝ) (X : CSR ℝ) (otherSize : Nat)
    (cache : Option (Cache feat.cols)) : Except Err (Weight K × Option (Cache feat.cols)) :=
  if feat.cols = 0 then .ok (W, cache)
  else do
    let c ← featureCache cfg feat lam X otherSize cache
    let W' ← solveFeatureWeight ω feat factor W c
    return (W', some c)

/-! ## The trainer -/

/-- `X.transpose()` (IALSTrainer.hpp:713): row `j` holds the entries of column `j`, by row. -/
abbrev transpose (X : CSR ℝ) : CSR ℝ := Sim.transpose X

/-- The fields of `IALSTrainer` (IALSTrainer.hpp:987-999).  The solvers' matrices `P` are recomputed
before every use and are not kept here; the feature matrices of a trainer without features are
empty. -/
structure Trainer (K : Nat) where
  cfg : Config
  user : Factor K
  item : Factor K
  userW : Weight K
  itemW : Weight K
  X : CSR ℝ
  Xt : CSR ℝ
  userF : Features
  itemF : Features
  featureAware : Bool
  userCache : Option (Cache userF.cols)
  itemCache : Option (Cache itemF.cols)
  epoch : Nat

/-- a default-constructed feature matrix -/
def Features.none : Features := ⟨0, 0, fun _ _ => 0⟩

/-- a default-constructed weight matrix -/
def Weight.none : Weight K := ⟨0, 0, fun _ => 0⟩

/-- The constructor without features (IALSTrainer.hpp:710-720).  `u₀`, `v₀` are the initial factors
(normal random numbers, or whatever the memory held if `init_stdev ≤ 0`). -/
def Trainer.create (cfg : Config) (X : CSR ℝ) (u₀ v₀ : Nat → Vec K) : Trainer K where
  cfg := cfg
  user := ⟨X.nrows, u₀⟩
  item := ⟨X.cols, v₀⟩
  userW := Weight.none
  itemW := Weight.none
  X := X
  Xt := transpose X
  userF := Features.none
  itemF := Features.none
  featureAware := false
  userCache := none
  itemCache := none
  epoch := 0

open Classical in
/-- The constructor with features (IALSTrainer.hpp:722-743, 1001-1014). -/
noncomputable def Trainer.createWithFeatures (cfg : Config) (X : CSR ℝ) (userF itemF : Features)
    (u₀ v₀ : Nat → Vec K) : Except Err (Trainer K) :=
  if userF.rows ≠ X.nrows ∨ itemF.rows ≠ X.cols then .error .invalidArgument
  else if (userF.cols ≠ 0 ∧ cfg.lambdaUser ≤ 0) ∨ (itemF.cols ≠ 0 ∧ cfg.lambdaItem ≤ 0) then
    .error .invalidArgument
  else .ok
    { cfg := cfg
      user := ⟨X.nrows, u₀⟩
      item := ⟨X.cols, v₀⟩
      userW := ⟨userF.cols, K, fun _ => 0⟩
      itemW := ⟨itemF.cols, K, fun _ => 0⟩
      X := X
      Xt := transpose X
      userF := userF
      itemF := itemF
      featureAware := true
      userCache := none
      itemCache := none
      epoch := 0 }

variable {T : Nat}

/-- the user half of `IALSTrainer::step` (IALSTrainer.hpp:763-771, 784-785) -/
noncomputable def Trainer.stepUser (ω : Oracle T) (sc : SolverConfig) (tr : Trainer K) :
    Except Err (Trainer K) := do
  let P ← prepareP (ω.at 0) tr.cfg tr.item
  if tr.featureAware = true ∧ tr.cfg.warmup ≤ tr.epoch ∧ 0 < tr.userW.rows then
    let user ← solverStepPrior (ω.at 1) tr.cfg sc P tr.X tr.item
      (featureTimesWeight tr.userF tr.userW) tr.user
    let (w, c) ← updateFeatureWeight (ω.at 2) tr.cfg tr.userF user tr.userW tr.cfg.lambdaUser tr.X
      tr.item.n tr.userCache
    return { tr with user := user, userW := w, userCache := c }
  else
    let user ← solverStep (ω.at 1) tr.cfg sc P tr.X tr.item tr.user
    return { tr with user := user }

/-- the item half of `IALSTrainer::step` (IALSTrainer.hpp:772-780, 786-787) -/
noncomputable def Trainer.stepItem (ω : Oracle T) (sc : SolverConfig) (tr : Trainer K) :
    Except Err (Trainer K) := do
  let P ← prepareP (ω.at 0) tr.cfg tr.user
  if tr.featureAware = true ∧ tr.cfg.warmup ≤ tr.epoch ∧ 0 < tr.itemW.rows then
    let item ← solverStepPrior (ω.at 1) tr.cfg sc P tr.Xt tr.user
      (featureTimesWeight tr.itemF tr.itemW) tr.item
    let (w, c) ← updateFeatureWeight (ω.at 2) tr.cfg tr.itemF item tr.itemW tr.cfg.lambdaItem tr.Xt
      tr.user.n tr.itemCache
    return { tr with item := item, itemW := w, itemCache := c }
  else
    let item ← solverStep (ω.at 1) tr.cfg sc P tr.Xt tr.user tr.item
    return { tr with item := item }

/-- `IALSTrainer::step` (IALSTrainer.hpp:758-789) -/
noncomputable def Trainer.step (ω : Oracle T) (sc : SolverConfig) (tr : Trainer K) :
    Except Err (Trainer K) :=
  if tr.featureAware = true ∧ sc.solverType = .ialspp then .error .invalidArgument
  else do
    let tr₁ ← tr.stepUser (ω.at 0) sc
    let tr₂ ← tr₁.stepItem (ω.at 1) sc
    return { tr₂ with epoch := tr₂.epoch + 1 }

/-- squared norm of a row -/
def sqNorm (v : Vec K) : ℝ := v ⬝ᵥ v

/-- the contribution of user `u` to the first loop of `compute_loss` (IALSTrainer.hpp:861-878) -/
noncomputable def lossUser (tr : Trainer K) (u : Nat) : ℝ :=
  let acc := (tr.X.row u).foldl
    (fun (s : ℝ × Nat) e =>
      let prediction := tr.user.row u ⬝ᵥ tr.item.row e.1
      (s.1 + (e.2 * prediction * prediction - 2 * (e.2 + bias tr.cfg) * prediction + e.2
        + bias tr.cfg), s.2 + 1)) (0, 0)
  if ¬ (tr.featureAware = true ∧ 0 < tr.userW.rows) then
    acc.1 + computeReg tr.cfg acc.2 tr.item.n * sqNorm (tr.user.row u)
  else acc.1

/-- the contribution of item `i` to the second loop of `compute_loss` (IALSTrainer.hpp:899-909) -/
noncomputable def lossItem (tr : Trainer K) (i : Nat) : ℝ :=
  if ¬ (tr.featureAware = true ∧ 0 < tr.itemW.rows) then
    computeReg tr.cfg (tr.Xt.row i).length tr.user.n * sqNorm (tr.item.row i)
  else 0

/-- the feature part of `compute_loss` for one side (IALSTrainer.hpp:919-927, 928-937) -/
noncomputable def lossFeature (cfg : Config) (F : Factor K) (feat : Features) (W : Weight K) (lam : ℝ)
    (X : CSR ℝ) (otherSize : Nat) : ℝ :=
  ∑ r ∈ Finset.range F.n, computeReg cfg (X.row r).length otherSize *
      sqNorm (F.row r - (featureTimesWeight feat W).row r)
    + lam * ∑ f ∈ Finset.range W.rows, sqNorm (W.val f)

open Classical in
/-- `compute_loss` (IALSTrainer.hpp:836-940) -/
noncomputable def Trainer.computeLoss (ω : Oracle T) (tr : Trainer K) : Except Err ℝ := do
  let Pu ← prepareP (ω.at 0) tr.cfg tr.item
  let Pi ← prepareP (ω.at 1) tr.cfg tr.user
  let gramPart : ℝ := if tr.cfg.alpha0 ≠ 0 then (∑ i, ∑ j, Pu i j * Pi i j) / tr.cfg.alpha0 else 0
  let userPart := parSum (ω.at 2) tr.user.n 1 (lossUser tr)
  let itemPart := parSum (ω.at 3) tr.item.n 1 (lossItem tr)
  let userFeature : ℝ := if tr.featureAware = true ∧ 0 < tr.userW.rows then
    lossFeature tr.cfg tr.user tr.userF tr.userW tr.cfg.lambdaUser tr.X tr.item.n else 0
  let itemFeature : ℝ := if tr.featureAware = true ∧ 0 < tr.itemW.rows then
    lossFeature tr.cfg tr.item tr.itemF tr.itemW tr.cfg.lambdaItem tr.Xt tr.user.n else 0
  return (gramPart + userPart + itemPart + userFeature + itemFeature) / 2

/-- `transform_user` (IALSTrainer.hpp:791-795) -/
noncomputable def Trainer.transformUser (ω : Oracle T) (sc : SolverConfig) (tr : Trainer K)
    (X : CSR ℝ) : Except Err (Factor K) := do
  let P ← prepareP (ω.at 0) tr.cfg tr.item
  xToVector (ω.at 1) tr.cfg sc P X tr.item

/-- `transform_item` (IALSTrainer.hpp:797-802) -/
noncomputable def Trainer.transformItem (ω : Oracle T) (sc : SolverConfig) (tr : Trainer K)
    (X : CSR ℝ) : Except Err (Factor K) := do
  let P ← prepareP (ω.at 0) tr.cfg tr.user
  xToVector (ω.at 1) tr.cfg sc P (transpose X) tr.user

/-- `transform_user_feature` with its checks (IALSTrainer.hpp:824-828, 1016-1028); `K` stands for the
trainer's `K`. -/
def Trainer.transformUserFeature (tr : Trainer K) (feat : Features) : Except Err (Factor K) :=
  if tr.userW.cols ≠ K then .error .invalidArgument
  else if feat.cols ≠ tr.userW.rows then .error .invalidArgument
  else .ok (featureTimesWeight feat tr.userW)

/-- `transform_item_feature` (IALSTrainer.hpp:830-834, 1030-1042) -/
def Trainer.transformItemFeature (tr : Trainer K) (feat : Features) : Except Err (Factor K) :=
  if tr.itemW.cols ≠ K then .error .invalidArgument
  else if feat.cols ≠ tr.itemW.rows then .error .invalidArgument
  else .ok (featureTimesWeight feat tr.itemW)

/-- `transform_user_with_feature` (IALSTrainer.hpp:804-812) -/
noncomputable def Trainer.transformUserWithFeature (ω : Oracle T) (sc : SolverConfig)
    (tr : Trainer K) (X : CSR ℝ) (feat : Features) : Except Err (Factor K) := do
  let P ← prepareP (ω.at 0) tr.cfg tr.item
  let prior ← tr.transformUserFeature feat
  xToVectorPrior (ω.at 1) tr.cfg sc P X tr.item prior

/-- `transform_item_with_feature` (IALSTrainer.hpp:814-822) -/
noncomputable def Trainer.transformItemWithFeature (ω : Oracle T) (sc : SolverConfig)
    (tr : Trainer K) (X : CSR ℝ) (feat : Features) : Except Err (Factor K) := do
  let P ← prepareP (ω.at 0) tr.cfg tr.user
  let prior ← tr.transformItemFeature feat
  xToVectorPrior (ω.at 1) tr.cfg sc P (transpose X) tr.user prior

/-- the block size of `user_scores` (IALSTrainer.hpp:957-963) -/
def scoreChunk (T size : Nat) : Nat := max 16 (min 128 ((size + T * 4 - 1) / (T * 4)))

/-- `user_scores` (IALSTrainer.hpp:942-984): `end - begin` rows of scores for the `item.n` items. -/
def Trainer.userScores (ω : Oracle T) (tr : Trainer K) (b e : Nat) :
    Except Err (Nat × (Nat → Nat → ℝ)) :=
  if T = 0 then .error .invalidArgument
  else if e < b then .error .invalidArgument
  else if tr.user.n < e then .error .invalidArgument
  else
    let size := e - b
    (parRows ω size (scoreChunk T size)
      (fun r _ => .ok (fun i => if i < tr.item.n then tr.user.row (r + b) ⬝ᵥ tr.item.row i else 0))
      (fun _ _ => 0)).map (fun m => (size, m))

/-- The trainers a program can hold for a configuration and an interaction matrix: constructed with or
without features from any initial factors (IALSTrainer.hpp:710-743), then stepped any number of times,
each time with any solver configuration, number of threads and interleaving (758-789).
Simplification: a trainer whose `step` threw half-way is not followed further. -/
inductive Trainer.Reached (cfg : Config) (X : CSR ℝ) : Trainer K → Prop
  | create (u₀ v₀ : Nat → Vec K) : Reached cfg X (Trainer.create cfg X u₀ v₀)
  | features (userF itemF : Features) (u₀ v₀ : Nat → Vec K) (tr : Trainer K) :
      Trainer.createWithFeatures cfg X userF itemF u₀ v₀ = .ok tr → Reached cfg X tr
  | step {T : Nat} (ω : Oracle T) (sc : SolverConfig) (tr tr' : Trainer K) :
      ω.Complete → Reached cfg X tr → tr.step ω sc = .ok tr' → Reached cfg X tr'

end Irspack.Ials
