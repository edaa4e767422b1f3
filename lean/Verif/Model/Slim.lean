import Mathlib.Algebra.Order.Field.Basic
import Mathlib.Algebra.Order.Group.Unbundled.Abs
import Verif.Model.Sparse

/-!
# SLIM (`/repo/cpp_source/util.hpp:228-424`) and its recommender (`recommenders/slim.py`)

Simplifications: arithmetic is that of a linearly ordered field `K` instead of `float`.  In particular
`x / 0 = 0`; the only division that can have a zero denominator is the one by
`quadratic = x2_sum + l2_coeff` for a feature without non-zero entries and `l2_coeff = 0`, where the
numerator is `∓ l1_coeff`: IEEE arithmetic gives `∓inf` (or NaN for `l1_coeff = 0`), neither passes
the sign test that follows, so the coefficient is 0 there as it is here.
-/

namespace Irspack.Slim

/-- The arguments of `SLIM`, except `X` and `n_threads`.  `positiveOnly` and `blockSize` (the SIMD
width of `float`) are its template parameters (util.hpp:228-232).  `prec` is the tolerance of Eigen's
`isZero()` as used at util.hpp:351; its default for `float` is `1e-5`. -/
structure Config (K : Type) where
  positiveOnly : Bool
  blockSize : Nat
  nIter : Nat
  l2 : K
  l1 : K
  tol : K
  prec : K
  topK : Int

variable {K : Type} [Field K] [LinearOrder K]

/-- `remnants` (one value per lane and user) and `coeffs` (one value per lane and feature) of the
block a worker is busy with (util.hpp:258-259).  Lane `k` of the block starting at `b` belongs to
column `b + k`. -/
structure Block (K : Type) where
  rem : Nat → Nat → K
  coef : Nat → Nat → K

/-- stored entries of column `f` of `X_csc` -/
def column (X : CSC K) (f : Nat) : SpVec K := X.cols.getD f []

/-- the last value stored for row `u`: what an assignment loop over the entries leaves there -/
def lastStored (v : SpVec K) (u : Nat) : K :=
  v.foldl (fun acc e => if e.1 = u then e.2 else acc) 0

/-- `remnants.setZero(); coeffs.setZero(); remnants(lane, row) = -value` for the valid lanes
(util.hpp:281-289). -/
def initBlock (X : CSC K) (B begin : Nat) : Block K where
  rem := fun k u => if k < B ∧ begin + k < X.cols.length
    then -lastStored (column X (begin + k)) u else 0
  coef := fun _ _ => 0

/-- `x2_sum` (util.hpp:299-303) -/
def x2Sum (v : SpVec K) : K := (v.map (fun e => e.2 * e.2)).sum

/-- `linear` for one lane: `Σ x * remnants(row) - x2_sum * coeff` (util.hpp:298-306) -/
def linear (v : SpVec K) (rem : Nat → K) (coef : K) : K :=
  (v.map (fun e => e.2 * rem e.1)).sum - x2Sum v * coef

/-- The choice between `lplus`, `lminus` and 0 (util.hpp:329-346). -/
def choose (positiveOnly : Bool) (lplus lminus : K) : K :=
  if positiveOnly then
    if lplus > 0 then lplus else 0
  else
    if lplus > 0 then lplus else if lminus < 0 then lminus else 0

/-- The new coefficient of feature `f` in lane `k` (util.hpp:296-347). -/
def newCoef (cfg : Config K) (X : CSC K) (begin : Nat) (s : Block K) (f k : Nat) : K :=
  let lin := linear (column X f) (s.rem k) (s.coef k f)
  let quadratic := x2Sum (column X f) + cfg.l2
  if begin + k = f then 0
  else choose cfg.positiveOnly ((-lin - cfg.l1) / quadratic) ((-lin + cfg.l1) / quadratic)

/-- `coeff_temp` after the update: new minus old coefficient (util.hpp:348-349). -/
def change (cfg : Config K) (X : CSC K) (begin : Nat) (s : Block K) (f k : Nat) : K :=
  newCoef cfg X begin s f k - s.coef k f

/-- `coeff_temp.isZero()`: Eigen compares every lane with the precision (util.hpp:351). -/
def isZero (cfg : Config K) (X : CSC K) (begin : Nat) (s : Block K) (f : Nat) : Bool :=
  (List.range cfg.blockSize).all (fun k => decide (|change cfg X begin s f k| ≤ cfg.prec))

/-- One pass through the body of the feature loop: the coefficients of feature `f` in all lanes are
replaced, and the remnants are corrected unless the change `isZero` (util.hpp:294-359). -/
def featureStep (cfg : Config K) (X : CSC K) (begin : Nat) (s : Block K) (f : Nat) : Block K where
  coef := fun k g => if g = f then newCoef cfg X begin s f k else s.coef k g
  rem := fun k u =>
    if isZero cfg X begin s f then s.rem k u
    else s.rem k u + ((column X f).map
      (fun e => if e.1 = u then e.2 * change cfg X begin s f k else 0)).sum

/-- `delta` after that pass (util.hpp:357). -/
def deltaStep (cfg : Config K) (X : CSC K) (begin : Nat) (s : Block K) (f : Nat) (delta : K) : K :=
  if isZero cfg X begin s f then delta
  else ((List.range cfg.blockSize).map (fun k => |change cfg X begin s f k|)).foldl max delta

/-- The feature loop of one iteration over a visiting order (util.hpp:293-359). -/
def sweep (cfg : Config K) (X : CSC K) (begin : Nat) (order : List Nat) (s : Block K) : Block K × K :=
  order.foldl (fun p f => (featureStep cfg X begin p.1 f, deltaStep cfg X begin p.1 f p.2)) (s, 0)

/-- The iterations for one block with `n` left: shuffle, feature loop, stop if `delta < tol`
(util.hpp:291-363).  `shuffles c` is the content of `indices` after the worker's `c`-th
`std::shuffle` (the generator and `indices` live as long as the worker, util.hpp:253-257, 292).  Also
returns the number of shuffles consumed. -/
def iterations (cfg : Config K) (X : CSC K) (begin : Nat) (shuffles : Nat → List Nat) :
    Nat → Nat → Block K → Block K × Nat
  | 0, c, s => (s, c)
  | n + 1, c, s =>
    let r := sweep cfg X begin (shuffles c) s
    if r.2 < cfg.tol then (r.1, c + 1) else iterations cfg X begin shuffles n (c + 1) r.1

/-- What a worker keeps between blocks: the number of shuffles done, `argsort_buffer`,
`local_results` (util.hpp:253-271).  A triplet is (row, column, value). -/
structure Worker (K : Type) where
  shuffled : Nat
  buffer : List (K × Nat)
  out : List (Nat × Nat × K)

/-- The non-zero coefficients of a lane in feature order, as written to the front of
`argsort_buffer` (util.hpp:382-392). -/
def nonzeros (F : Nat) (coef : Nat → K) : List (K × Nat) :=
  ((List.range F).filter (fun f => decide (coef f ≠ 0))).map (fun f => (coef f, f))

/-- Output of one column when `top_k >= 0` (util.hpp:377-407): overwrite the front of the buffer, if
there are more than `top_k` coefficients sort *the whole buffer* (`srt`: descending by value), emit
the first `n_taken_coeffs` buffer entries. -/
def emitColumn (F top : Nat) (srt : List (K × Nat) → List (K × Nat)) (col : Nat) (coef : Nat → K)
    (w : Worker K) : Worker K :=
  let nz := nonzeros F coef
  let filled := nz ++ w.buffer.drop nz.length
  let buf := if top < nz.length then srt filled else filled
  let taken := if top < nz.length then top else nz.length
  { w with
    buffer := buf
    out := w.out ++ (buf.take taken).map (fun e => (e.2, col, e.1)) }

/-- Output of one column when `top_k < 0`: every non-zero coefficient (util.hpp:365-376; the C++
loops run feature-major over the block, which only changes the order of the triplets). -/
def emitAll (F : Nat) (col : Nat) (coef : Nat → K) (w : Worker K) : Worker K :=
  { w with out := w.out ++ (nonzeros F coef).map (fun e => (e.2, col, e.1)) }

/-- The columns of block `i`: `[i*B, min(i*B + B, F))` (util.hpp:278-280). -/
def blockLanes (B F i : Nat) : List Nat := List.range (min (i * B + B) F - i * B)

/-- Everything a worker does with block number `i` (util.hpp:273-408). -/
def processBlock (cfg : Config K) (X : CSC K) (shuffles : Nat → List Nat)
    (srt : List (K × Nat) → List (K × Nat)) (i : Nat) (w : Worker K) : Worker K :=
  let begin := i * cfg.blockSize
  let r := iterations cfg X begin shuffles cfg.nIter w.shuffled (initBlock X cfg.blockSize begin)
  (blockLanes cfg.blockSize X.cols.length i).foldl
    (fun w k =>
      if cfg.topK < 0 then emitAll X.cols.length (begin + k) (r.1.coef k) w
      else emitColumn X.cols.length cfg.topK.toNat srt (begin + k) (r.1.coef k) w)
    { w with shuffled := r.2 }

/-- A worker when it starts: `argsort_buffer.resize(F)` leaves `F` pairs `(0, 0)`
(util.hpp:267-270). -/
def freshWorker (cfg : Config K) (X : CSC K) : Worker K where
  shuffled := 0
  buffer := if cfg.topK < 0 then [] else List.replicate X.cols.length (0, 0)
  out := []

/-- Number of blocks: the cursor advances by `block_size` until it reaches `F` (util.hpp:273-276). -/
def blockCount (cfg : Config K) (X : CSC K) : Nat :=
  (X.cols.length + cfg.blockSize - 1) / cfg.blockSize

/-- `SLIM` up to the join of the workers (util.hpp:233-411).  The `i`-th claimed block is
`[i*B, i*B+B)`, so the queue is run over block numbers with chunk 1. -/
def slim {T : Nat} (cfg : Config K) (X : CSC K) (shuffles : Nat → List Nat)
    (srt : List (K × Nat) → List (K × Nat)) (sched : List (Fin T)) : Region T (Worker K) Unit :=
  if T = 0 then .error .invalidArgument
  else if cfg.nIter = 0 then .error .invalidArgument
  else if cfg.l2 < 0 then .error .invalidArgument
  else if cfg.l1 < 0 then .error .invalidArgument
  else .ok (WorkQueue.run (blockCount cfg X) 1
    (fun i w m => (processBlock cfg X shuffles srt i w, m))
    (WorkQueue.init (freshWorker cfg X) ()) sched)

/-- `result.setFromTriplets(all local results)`: entries of equal position add up
(util.hpp:412-424). -/
def weights {T : Nat} (s : WorkQueue.State T (Worker K) Unit) (f j : Nat) : K :=
  ((List.ofFn (fun t => (s.loc t).out)).flatten.map
    (fun e => if e.1 = f ∧ e.2.1 = j then e.2.2 else 0)).sum

/-- `SLIMRecommender._learn` (slim.py:79-103): the coefficients handed to `SLIM`.  `prec`, `blockSize`
are fixed by the build. -/
def recommenderConfig (nUsers : Nat) (α l1Ratio : K) (positiveOnly : Bool) (nIter : Nat) (tol : K)
    (topK : Option Int) (blockSize : Nat) (prec : K) : Config K where
  positiveOnly := positiveOnly
  blockSize := blockSize
  nIter := nIter
  l2 := nUsers * α * (1 - l1Ratio)
  l1 := nUsers * α * l1Ratio
  tol := tol
  prec := prec
  topK := match topK with
    | none => -1
    | some k => k

end Irspack.Slim
