import Verif.Model.Ials

/-!
# iALS in floating-point arithmetic (`/repo/cpp_source/als/IALSTrainer.hpp`)

`Model/Ials.lean` computes in exact reals.  Here the operations on `Real = float`
(/repo/cpp_source/als/definitions.hpp) are followed by a rounding, and what Eigen computes with whole
matrices is a parameter: a block product, a rank update, a dot product and a Cholesky solver, in an order
of its own.  Modelled: `prepare_p`, `compute_reg`, `step_cholesky` and `user_scores`.  Overflow, underflow
and NaN are not modelled.
-/

namespace Irspack.Ials.Float

open Irspack WorkQueue

variable {K T : Nat}

/-- The arithmetic of `float` and the routines of Eigen and of the C++ library that iALS uses. -/
structure Machine (K : Nat) where
  /-- rounding of the exact result of `+` or `*`, or of an integer converted to `float` -/
  fl : ℝ → ℝ
  /-- `std::sqrt` (IALSTrainer.hpp:41) -/
  sqrt : ℝ → ℝ
  /-- `std::pow` (IALSTrainer.hpp:119) -/
  pow : ℝ → ℝ → ℝ
  /-- `P.noalias() += rows.transpose() * rows` (IALSTrainer.hpp:102-105) -/
  gram : List (Vec K) → Matrix (Fin K) (Fin K) ℝ → Matrix (Fin K) (Fin K) ℝ
  /-- `target.rankUpdate(rows.adjoint(), 1)`: the upper triangle (IALSTrainer.hpp:48-49) -/
  rank : List (Vec K) → Matrix (Fin K) (Fin K) ℝ → Matrix (Fin K) (Fin K) ℝ
  /-- one entry of `B.noalias() += c * v`: `axpy c v b` (IALSTrainer.hpp:305) -/
  axpy : ℝ → ℝ → ℝ → ℝ
  /-- `LLT<_, Upper> llt(A); llt.solve(b)`, `none` if either fails or the solution is not finite
  (IALSTrainer.hpp:316-323) -/
  llt : Matrix (Fin K) (Fin K) ℝ → Vec K → Option (Vec K)
  /-- one entry of the product `user · itemᵀ` (IALSTrainer.hpp:974-976) -/
  dot : Vec K → Vec K → ℝ

/-- `other_factor.middleRows(cursor_local, block_end - cursor_local)`, the `b`-th block of 16 rows
(IALSTrainer.hpp:96-105). -/
def blockRows (V : Factor K) (b : Nat) : List (Vec K) :=
  (List.range (min 16 (V.n - 16 * b))).map (fun k => V.row (16 * b + k))

/-- the number of blocks of 16 rows (IALSTrainer.hpp:94-99) -/
def blocks (n : Nat) : Nat := (n + 15) / 16

/-- The workers of `prepare_p` (IALSTrainer.hpp:84-109).  The cursor counts blocks instead of rows. -/
noncomputable def gramRegion (M : Machine K) (ω : Oracle T) (V : Factor K) :
    State T (Matrix (Fin K) (Fin K) ℝ) Unit :=
  run (blocks V.n) 1 (fun b P m => (M.gram (blockRows V b) P, m)) (init 0 ()) (ω [] (blocks V.n) 1)

/-- `prepare_p` (IALSTrainer.hpp:78-115). -/
noncomputable def prepareP (M : Machine K) (ω : Oracle T) (cfg : Config) (V : Factor K) :
    Except Err (Matrix (Fin K) (Fin K) ℝ) :=
  if T = 0 then .error .invalidArgument
  else
    let P := (List.finRange T).foldl
      (fun (P : Matrix (Fin K) (Fin K) ℝ) t => fun i j => M.fl (P i j + (gramRegion M ω V).loc t i j)) 0
    .ok (fun i j => M.fl (P i j * cfg.alpha0))

/-- `compute_reg` (IALSTrainer.hpp:117-120); the integers are converted to `float`. -/
noncomputable def computeReg (M : Machine K) (cfg : Config) (nnz otherSize : Nat) : ℝ :=
  M.fl (cfg.reg * M.pow (M.fl (M.fl (cfg.alpha0 * M.fl otherSize) + M.fl nnz)) cfg.nu)

/-- `BatchedRankUpdater::consume` (IALSTrainer.hpp:46-53) -/
def consume (M : Machine K) (b : Batch (Fin K)) : Batch (Fin K) :=
  if 0 < b.buf.length then ⟨[], M.rank b.buf b.target⟩ else b

/-- `BatchedRankUpdater::add_row` (IALSTrainer.hpp:40-45) -/
def addRow (M : Machine K) (b : Batch (Fin K)) (v : Vec K) (c : ℝ) : Batch (Fin K) :=
  let b' : Batch (Fin K) := ⟨b.buf ++ [fun i => M.fl (M.sqrt c * v i)], b.target⟩
  if batchMax ≤ b'.buf.length then consume M b' else b'

/-- One row of `step_cholesky` (IALSTrainer.hpp:296-324). -/
noncomputable def choleskyRow (M : Machine K) (cfg : Config) (P : Matrix (Fin K) (Fin K) ℝ) (V : Factor K)
    (row : SpVec ℝ) : Except Err (Vec K) :=
  let acc := row.foldl
    (fun (s : Batch (Fin K) × Vec K × Nat) e =>
      (addRow M s.1 (V.row e.1) e.2, (fun i => M.axpy (M.fl (bias cfg + e.2)) (V.row e.1 i) (s.2.1 i)),
        s.2.2 + 1))
    (⟨[], P⟩, 0, 0)
  let lam := computeReg M cfg acc.2.2 V.n
  let A := (consume M acc.1).target
  match M.llt (fun i j => if i = j then M.fl (A i j + lam) else A i j) acc.2.1 with
  | none => .error .runtimeError
  | some x => .ok x

/-- A half-epoch with the Cholesky solver: `prepare_p` and `step_cholesky` for the rows of `F`, with the
embeddings `V` of the other side fixed (IALSTrainer.hpp:273-331, 758-789). -/
noncomputable def halfEpoch (M : Machine K) (ω : Oracle T) (cfg : Config) (X : CSR ℝ) (V F : Factor K) :
    Except Err (Factor K) := do
  let P ← prepareP M (ω.at 0) cfg V
  (parRows (ω.at 1) F.n 1 (fun r _ => choleskyRow M cfg P V (X.row r)) F.row).map F.setRows

/-- `user_scores` (IALSTrainer.hpp:942-984) -/
noncomputable def userScores (M : Machine K) (ω : Oracle T) (user item : Factor K) (b e : Nat) :
    Except Err (Nat × (Nat → Nat → ℝ)) :=
  if T = 0 then .error .invalidArgument
  else if e < b then .error .invalidArgument
  else if user.n < e then .error .invalidArgument
  else
    let size := e - b
    (parRows ω size (scoreChunk T size)
      (fun r _ => .ok (fun i => if i < item.n then M.dot (user.row (r + b)) (item.row i) else 0))
      (fun _ _ => 0)).map (fun m => (size, m))

end Irspack.Ials.Float
