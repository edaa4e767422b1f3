import Verif.Spec.IalsModel
import Mathlib.Topology.MetricSpace.Pseudo.Defs

/-!
# Endless training
-/

namespace Irspack.Ials

open Spec.Ials

variable {K : Nat}

/-- Training epoch after epoch: `tr n` is the trainer after `n` epochs and `sc n` the solver
configuration of the next one; threads and interleavings may differ from epoch to epoch. -/
structure TrainingRun (cfg : Config) (X : CSR ℝ) (sc : Nat → SolverConfig) (tr : Nat → Trainer K) : Prop where
  start : (tr 0).Reached cfg X
  epoch : ∀ n, ∃ (T : Nat) (ω : Oracle T), ω.Complete ∧ (tr n).step ω (sc n) = .ok (tr (n + 1))

/-- How much the embeddings moved from `(A, B)` to `(A', B')`: half the sum of the squared distances,
each weighted with the regularisation of its user or item. -/
noncomputable def movement (p : Params) (D : Data) (A B A' B' : Nat → Fin K → ℝ) : ℝ :=
  1 / 2 * ∑ u ∈ Finset.range D.U, userWeight p D u * normSq (A u - A' u)
    + 1 / 2 * ∑ i ∈ Finset.range D.I, itemWeight p D i * normSq (B i - B' i)

/-- Along the epochs `φ 0, φ 1, …` the embeddings of all users and items tend to `A` and `B`. -/
def EmbeddingsTendTo (X : CSR ℝ) (tr : Nat → Trainer K) (φ : Nat → Nat) (A B : Nat → Fin K → ℝ) : Prop :=
  (∀ u < X.nrows, ∀ k, Filter.Tendsto (fun n => (tr (φ n)).user.row u k) Filter.atTop (nhds (A u k))) ∧
  ∀ i < X.cols, ∀ k, Filter.Tendsto (fun n => (tr (φ n)).item.row i k) Filter.atTop (nhds (B i k))

/-- No change of the user embeddings alone, and no change of the item embeddings alone, has a smaller
loss. -/
def MutuallyOptimal (p : Params) (D : Data) (A B : Nat → Fin K → ℝ) : Prop :=
  (∀ A', loss p D A B ≤ loss p D A' B) ∧ ∀ B', loss p D A B ≤ loss p D A B'

/-! ## With features -/

/-- How much the feature weights moved: half the sum of the squared distances, weighted with the penalties
`lambda_user_feature` and `lambda_item_feature`. -/
noncomputable def weightMovement (lu li : ℝ) (nU nI : Nat) (WU WI WU' WI' : Nat → Fin K → ℝ) : ℝ :=
  1 / 2 * (lu * weightNormSq nU (fun f => WU f - WU' f)) + 1 / 2 * (li * weightNormSq nI (fun f => WI f - WI' f))

/-- Along the epochs `φ 0, φ 1, …` the weights of all user and item features tend to `WU` and `WI`. -/
def WeightsTendTo (FU FI : Features) (tr : Nat → Trainer K) (φ : Nat → Nat) (WU WI : Nat → Fin K → ℝ) : Prop :=
  (∀ f < FU.cols, ∀ k, Filter.Tendsto (fun n => (tr (φ n)).userW.val f k) Filter.atTop (nhds (WU f k))) ∧
  ∀ f < FI.cols, ∀ k, Filter.Tendsto (fun n => (tr (φ n)).itemW.val f k) Filter.atTop (nhds (WI f k))

/-- the documented loss of feature weights `WU`, `WI` and embeddings `A`, `B` -/
noncomputable def lossWithFeatures (cfg : Config) (X : CSR ℝ) (FU FI : Features) (WU WI A B : Nat → Fin K → ℝ) : ℝ :=
  featureLoss (paramsOf cfg) (Data.ofCSR X) cfg.lambdaUser cfg.lambdaItem FU.cols FU.val WU FI.cols FI.val WI A B

/-- No change of the user embeddings together with the weights of the user features, and no change of the
item embeddings together with the weights of the item features, has a smaller loss. -/
def SidesOptimal (cfg : Config) (X : CSR ℝ) (FU FI : Features) (WU WI A B : Nat → Fin K → ℝ) : Prop :=
  (∀ WU' A', lossWithFeatures cfg X FU FI WU WI A B ≤ lossWithFeatures cfg X FU FI WU' WI A' B) ∧
  ∀ WI' B', lossWithFeatures cfg X FU FI WU WI A B ≤ lossWithFeatures cfg X FU FI WU WI' A B'

/-- The squared length of what is missing for row `u` of `A` to solve its linear system with the opposite side
`B` fixed: the right-hand side, plus the regularisation times the embedding the features predict, minus the
system's matrix applied to `A u`. -/
noncomputable def rowResidual (p : Params) (D : Data) (nF : Nat) (F : Nat → Nat → ℝ) (W A B : Nat → Fin K → ℝ)
    (u : Nat) : ℝ :=
  normSq (systemRhs p D B u + userWeight p D u • predicted nF F W u - systemAt p D B u (A u))

end Irspack.Ials
