import Verif.Spec.FloatIals
import Verif.Model.FloatIals

/-!
# What is assumed of the floating-point routines iALS calls
-/

namespace Irspack.Spec

open Irspack.Ials

variable {K : Nat}

/-- Every operation has relative error at most `u`; block products, rank updates and dot products add up
their terms in some order (`AddedUp`); the Cholesky solver is backward stable with error `eta`. -/
structure Accurate (u eta : ℝ) (M : Float.Machine K) : Prop where
  unit : 0 ≤ u
  stable : 0 ≤ eta
  rounds : Rounds u M.fl
  sqrt : ∀ c, 0 ≤ c → |M.sqrt c - Real.sqrt c| ≤ u * Real.sqrt c
  pow : ∀ x y, 0 ≤ x → |M.pow x y - x ^ y| ≤ u * x ^ y
  gram : ∀ rows P i j, AddedUp u (P i j ::ₘ ↑(rows.map (fun v => v i * v j))) (M.gram rows P i j)
  rank : ∀ rows P i j, i ≤ j → AddedUp u (P i j ::ₘ ↑(rows.map (fun v => v i * v j))) (M.rank rows P i j)
  axpy : ∀ c v b, AddedUp u {b, c * v} (M.axpy c v b)
  llt : BackwardStable eta M.llt
  dot : ∀ x y, 0 < K → AddedUp u ↑((List.finRange K).map (fun k => x k * y k)) (M.dot x y)

end Irspack.Spec
