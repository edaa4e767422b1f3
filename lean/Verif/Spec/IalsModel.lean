import Verif.Spec.Ials
import Verif.Spec.Similarity
import Verif.Model.Ials

/-!
# Reading a trainer as a point of the documented loss
-/

namespace Irspack.Ials

open Spec.Ials

variable {K : Nat}

/-- the documented hyper-parameters of a configuration -/
def paramsOf (cfg : Config) : Params where
  original := decide (cfg.lossType = .original)
  alpha0 := cfg.alpha0
  reg := cfg.reg
  nu := cfg.nu

/-- The documented loss at the current embeddings and feature weights of a trainer (a trainer without
features has feature matrices without columns, for which `featureLoss` is `loss`). -/
noncomputable def Trainer.specLoss (tr : Trainer K) : ℝ :=
  featureLoss (paramsOf tr.cfg) (Data.ofCSR tr.X) tr.cfg.lambdaUser tr.cfg.lambdaItem
    tr.userF.cols tr.userF.val tr.userW.val tr.itemF.cols tr.itemF.val tr.itemW.val
    tr.user.row tr.item.row

/-- The assumptions on the data and hyper-parameters: column indices are in range and not repeated
within a row, confidences are not negative, `reg ≥ 0`, `alpha0 ≥ 0`. -/
structure Valid (cfg : Config) (X : CSR ℝ) : Prop where
  proper : Spec.Sim.Proper X
  nonneg : ∀ row ∈ X.rows, ∀ e ∈ row, (0 : ℝ) ≤ e.2
  reg : 0 ≤ cfg.reg
  alpha0 : 0 ≤ cfg.alpha0

/-- The regularisation of every row of `X` is positive: `reg > 0`, and either `nu = 0`, or the row has
an entry, or `alpha0 > 0` and there is something on the other side. -/
def RegPositive (cfg : Config) (X : CSR ℝ) : Prop :=
  0 < cfg.reg ∧ ∀ row ∈ X.rows, cfg.nu = 0 ∨ 0 < cfg.alpha0 * X.cols + row.length

end Irspack.Ials
