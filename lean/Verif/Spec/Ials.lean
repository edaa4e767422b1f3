import Mathlib.Analysis.SpecialFunctions.Pow.Real
import Mathlib.Algebra.BigOperators.Intervals
import Verif.Model.Sparse

/-!
# What iALS is supposed to minimise

The loss documented for `IALSRecommender` (/repo/src/irspack/recommenders/ials.py:252-258, 290-302).
There are `U` users and `I` items; `S u i` says that the interaction of user `u` with item `i` was
observed and `X u i` is its (scaled) value.
-/

namespace Irspack.Spec.Ials

/-- an interaction data set -/
structure Data where
  U : Nat
  I : Nat
  S : Nat → Nat → Prop
  X : Nat → Nat → ℝ

/-- The data set held by a sparse matrix with one row per user: an entry is observed if it is
stored. -/
noncomputable def Data.ofCSR (X : CSR ℝ) : Data where
  U := X.nrows
  I := X.cols
  S := fun u i => i ∈ (X.row u).map Prod.fst
  X := X.get

/-- the same data with users and items exchanged -/
def Data.swap (D : Data) : Data := ⟨D.I, D.U, fun i u => D.S u i, fun i u => D.X u i⟩

/-- hyper-parameters: `original` selects `loss_type = "ORIGINAL"` instead of `"IALSPP"` -/
structure Params where
  original : Bool
  alpha0 : ℝ
  reg : ℝ
  nu : ℝ

variable {K : Nat}

/-- the score `u · v` -/
def score (u v : Fin K → ℝ) : ℝ := ∑ k, u k * v k

/-- `‖v‖²` -/
def normSq (v : Fin K → ℝ) : ℝ := ∑ k, v k ^ 2

open Classical in
/-- `N_u`: the number of items observed for user `u` -/
noncomputable def Data.userCount (D : Data) (u : Nat) : Nat :=
  ((Finset.range D.I).filter (fun i => D.S u i)).card

open Classical in
/-- `N_i`: the number of users observed for item `i` -/
noncomputable def Data.itemCount (D : Data) (i : Nat) : Nat :=
  ((Finset.range D.U).filter (fun u => D.S u i)).card

/-- `reg (α₀ I + N_u) ^ ν` -/
noncomputable def userWeight (p : Params) (D : Data) (u : Nat) : ℝ :=
  p.reg * (p.alpha0 * D.I + D.userCount u) ^ p.nu

/-- `reg (α₀ U + N_i) ^ ν` -/
noncomputable def itemWeight (p : Params) (D : Data) (i : Nat) : ℝ :=
  p.reg * (p.alpha0 * D.U + D.itemCount i) ^ p.nu

open Classical in
/-- The documented data term of the default (iALS++) loss:
`Σ_{(u,i) ∈ S} X_ui (u·v - 1)² + α₀ Σ_{u,i} (u·v)²`. -/
noncomputable def ialsppTerm (α₀ : ℝ) (D : Data) (A B : Nat → Fin K → ℝ) : ℝ :=
  ∑ u ∈ Finset.range D.U, ∑ i ∈ (Finset.range D.I).filter (fun i => D.S u i),
      D.X u i * (score (A u) (B i) - 1) ^ 2
    + α₀ * ∑ u ∈ Finset.range D.U, ∑ i ∈ Finset.range D.I, score (A u) (B i) ^ 2

open Classical in
/-- The data term of the original loss (Hu et al.): `Σ_{u,i} c_ui (p_ui - u·v)²`, where observed pairs
have confidence `α₀ + X_ui` and preference 1, and the others confidence `α₀` and preference 0. -/
noncomputable def originalTerm (α₀ : ℝ) (D : Data) (A B : Nat → Fin K → ℝ) : ℝ :=
  ∑ u ∈ Finset.range D.U, ∑ i ∈ Finset.range D.I,
    (if D.S u i then α₀ + D.X u i else α₀) * ((if D.S u i then 1 else 0) - score (A u) (B i)) ^ 2

/-- the data term -/
noncomputable def dataTerm (p : Params) (D : Data) (A B : Nat → Fin K → ℝ) : ℝ :=
  if p.original = true then originalTerm p.alpha0 D A B else ialsppTerm p.alpha0 D A B

/-- The training loss in which user `u` is pulled towards `qA u` and item `i` towards `qB i`. -/
noncomputable def priorLoss (p : Params) (D : Data) (qA qB A B : Nat → Fin K → ℝ) : ℝ :=
  1 / 2 * dataTerm p D A B
    + 1 / 2 * (∑ u ∈ Finset.range D.U, userWeight p D u * normSq (A u - qA u)
      + ∑ i ∈ Finset.range D.I, itemWeight p D i * normSq (B i - qB i))

/-- The documented training loss of user embeddings `A` and item embeddings `B`. -/
noncomputable def loss (p : Params) (D : Data) (A B : Nat → Fin K → ℝ) : ℝ :=
  1 / 2 * dataTerm p D A B
    + 1 / 2 * (∑ u ∈ Finset.range D.U, userWeight p D u * normSq (A u)
      + ∑ i ∈ Finset.range D.I, itemWeight p D i * normSq (B i))

/-- the embeddings predicted from features: `F · W` -/
def predicted (nF : Nat) (F : Nat → Nat → ℝ) (W : Nat → Fin K → ℝ) (r : Nat) : Fin K → ℝ :=
  fun k => ∑ f ∈ Finset.range nF, F r f * W f k

/-- `‖W‖²` -/
def weightNormSq (nF : Nat) (W : Nat → Fin K → ℝ) : ℝ := ∑ f ∈ Finset.range nF, normSq (W f)

/-- The training loss of the feature-aware model
(/repo/cpp_source/als/IALSTrainer.hpp:911-937; the weights are the arguments `lambda_user_feature` and
`lambda_item_feature`, /repo/src/irspack/recommenders/ials.py:87-89): the embeddings are pulled towards the ones predicted
from the features, whose weights are pulled towards zero. -/
noncomputable def featureLoss (p : Params) (D : Data) (lamUser lamItem : ℝ)
    (nU : Nat) (FU : Nat → Nat → ℝ) (WU : Nat → Fin K → ℝ)
    (nI : Nat) (FI : Nat → Nat → ℝ) (WI : Nat → Fin K → ℝ) (A B : Nat → Fin K → ℝ) : ℝ :=
  priorLoss p D (predicted nU FU WU) (predicted nI FI WI) A B
    + 1 / 2 * (lamUser * weightNormSq nU WU + lamItem * weightNormSq nI WI)

open Classical in
/-- Left-hand side, at `x`, of the linear system whose solution is the best embedding of user `u` for
the item embeddings `B`: `α₀ Σ_i (v_i·x) v_i + Σ_{i ∈ S_u} X_ui (v_i·x) v_i + λ_u x`. -/
noncomputable def systemAt (p : Params) (D : Data) (B : Nat → Fin K → ℝ) (u : Nat) (x : Fin K → ℝ) :
    Fin K → ℝ := fun k =>
  p.alpha0 * ∑ i ∈ Finset.range D.I, score (B i) x * B i k
    + ∑ i ∈ (Finset.range D.I).filter (fun i => D.S u i), D.X u i * score (B i) x * B i k
    + userWeight p D u * x k

open Classical in
/-- Right-hand side of that system: `Σ_{i ∈ S_u} (X_ui + A) v_i` with `A = 0` (default loss) or
`A = α₀` (original loss). -/
noncomputable def systemRhs (p : Params) (D : Data) (B : Nat → Fin K → ℝ) (u : Nat) :
    Fin K → ℝ := fun k =>
  ∑ i ∈ (Finset.range D.I).filter (fun i => D.S u i),
    (D.X u i + if p.original = true then p.alpha0 else 0) * B i k

end Irspack.Spec.Ials
