import Verif.Model.NanArgs
import Verif.Model.NanScores
import Mathlib.Data.EReal.Basic

/-!
# From similarities that may be NaN to scores
(/repo/src/irspack/recommenders/knn.py:67-80, base.py:422-429)

The item-based nearest-neighbour recommenders without feature weighting and with a `top_k` of at least the number of
items, so that no row is truncated.
-/

namespace Irspack.NanArgs
open Irspack Sim

/-- `remove_diagonal` for row `i` (util.hpp:219-223). -/
noncomputable def zeroAtFp (i : Nat) (row : List (Nat × Fp)) : List (Nat × Fp) :=
  row.map (fun e => if i = e.1 then (e.1, .fin 0) else e)

/-- Row `i` of the item similarity `W` (knn.py:77-80) for the stored interactions `X`. -/
noncomputable def itemRowFp (kind : KindFp) (shrinkage : Fp) (X : CSR ℝ) (i : Nat) : List (Nat × Fp) :=
  zeroAtFp i (simRowFp kind shrinkage (transpose X) ((transpose X).row i))

/-- `get_score` for user `u` and item `j` (base.py:422-423): the sparse product adds, from 0, one term for each stored
interaction of the user and each stored similarity of its item to `j`; without any the score is 0. -/
noncomputable def scoreFp (kind : KindFp) (shrinkage : Fp) (X : CSR ℝ) (u j : Nat) : Fp :=
  (X.row u).foldl (fun acc a => (itemRowFp kind shrinkage X a.1).foldl
    (fun acc b => if b.1 = j then acc.add ((Fp.fin a.2).mul b.2) else acc) acc) (.fin 0)

/-- The score as the evaluator reads it: `none` is NaN. -/
noncomputable def Fp.read : Fp → Option EReal
  | .nan => none
  | .ninf => some ⊥
  | .fin x => some (x : EReal)
  | .pinf => some ⊤

end Irspack.NanArgs
