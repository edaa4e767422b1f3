import Mathlib.Analysis.SpecialFunctions.Pow.Real
import Verif.Model.IalsRecommender

/-!
# The initial embeddings of iALS (`Solver::initialize`, `/repo/cpp_source/als/IALSTrainer.hpp:64-76`)
-/

namespace Irspack.Ials

variable {K : Nat} {G : Type}

/-- `std::mt19937` with a `std::normal_distribution<Real>(0, sd)` of its own: the state `G` is that of
both, `seed` the state of a new pair and `next sd` a draw (IALSTrainer.hpp:67-69, 72). -/
structure Sampler (G : Type) where
  seed : Int → G
  next : ℝ → G → ℝ × G

/-- the inner loop (IALSTrainer.hpp:71-73) -/
def fillRow (next : G → ℝ × G) (row : Vec K) (g : G) : Vec K × G :=
  (List.finRange K).foldl
    (fun (s : Vec K × G) k => (Function.update s.1 k (next s.2).1, (next s.2).2)) (row, g)

/-- the outer loop (IALSTrainer.hpp:70-74) -/
def fillRows (next : G → ℝ × G) (n : Nat) (m : Nat → Vec K) (g : G) : (Nat → Vec K) × G :=
  (List.range n).foldl
    (fun (s : (Nat → Vec K) × G) i =>
      (Function.update s.1 i (fillRow next (s.1 i) s.2).1, (fillRow next (s.1 i) s.2).2)) (m, g)

open Classical in
/-- `Solver::initialize` (IALSTrainer.hpp:64-76) for a matrix with `n` rows, whose memory holds `m` when
it is allocated: Eigen's constructor leaves it uninitialised (IALSTrainer.hpp:712-713).  Rows from `n` on
do not exist and are shown as 0. -/
noncomputable def initFactor (N : Sampler G) (cfg : Config) (n : Nat) (m : Nat → Vec K) : Nat → Vec K :=
  let filled := if 0 < cfg.initStdev then
      (fillRows (N.next (cfg.initStdev / Real.sqrt K)) n m (N.seed cfg.randomSeed)).1
    else m
  fun r => if r < n then filled r else 0

/-- The trainer that `_create_trainer` makes, with its initial embeddings (ials.py:448-469,
IALSTrainer.hpp:710-743): each matrix is filled by a generator of its own with the same seed. -/
noncomputable def Recommender.seededTrainer (N : Sampler G) (r : Recommender) (mu mv : Nat → Vec K) :
    Except Err (Trainer K) :=
  r.createTrainer (initFactor N r.config r.args.X.nrows mu) (initFactor N r.config r.args.X.cols mv)

end Irspack.Ials
