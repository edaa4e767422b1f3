import Verif.Model.IalsRecommender
import Verif.Model.EarlyStop

/-! # The iALS trainer as a trainer with early stopping (/repo/src/irspack/recommenders/ials.py) -/

namespace Irspack.Ials

variable {K T : Nat}

/-- `IALSTrainer` as a `TrainerBase` and `IALSRecommender._create_trainer` (ials.py:67-164, 448-469).
`u₀`, `v₀` are the factors drawn for the recommender's `random_seed`; `ω k` is the thread schedule of
the epoch with index `k`. -/
noncomputable def ialsOps (r : Recommender) (u₀ v₀ : Nat → Vec K) (ω : Nat → Oracle T) :
    EarlyStop.TrainerOps (Trainer K) (SavedState K) where
  create := r.createTrainer u₀ v₀
  runEpoch k tr := tr.step (ω k) r.trainSolver
  save tr := tr.saveState
  load b tr := tr.loadState b

end Irspack.Ials
